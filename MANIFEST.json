{
 "claims": [
  {
   "property": "C01",
   "status": "proved",
   "theorems": [
    "Vctrs.C01_size_common",
    "Vctrs.C01_fails_iff",
    "Vctrs.C01_perm",
    "Vctrs.C01_absent"
   ],
   "note": "reduce() (with splice boxes), size2_common and vec_size_common_opts modelled; also ffi_size_common's .absent handling."
  },
  {
   "property": "C02",
   "status": "proved",
   "theorems": [
    "Vctrs.C02_recycle",
    "Vctrs.C02_size",
    "Vctrs.C02_recycle_common",
    "Vctrs.C02_recycle_common_fails",
    "Vctrs.C02_recycle_empty_size",
    "Vctrs.C02_recycle_negative",
    "Vctrs.C02_size_argument",
    "Vctrs.C02_null"
   ],
   "note": "vec_check_recycle, ffi_recycle, vec_recycle_common modelled. C02_size_argument: every object given for the size, with all outcomes (the first of several sizes is used). Also proved: vec_recycle(x, integer()) reads out of bounds (size.c:245) and a negative size is an internal error."
  },
  {
   "property": "C03",
   "status": "proved",
   "theorems": [
    "Vctrs.C03_table_size",
    "Vctrs.C03_lookup_terminates",
    "Vctrs.C03_load_never_full"
   ],
   "note": "Table size, probing loop and loading loop, for arbitrary equality and hash functions."
  },
  {
   "property": "C04",
   "status": "proved",
   "theorems": [
    "Vctrs.C04_unique_loc",
    "Vctrs.C04_unique",
    "Vctrs.C04_unique_distinct_covers",
    "Vctrs.C04_idempotent"
   ],
   "note": "For every element type whose equality is an equivalence compatible with the hash (see C25, C26)."
  },
  {
   "property": "C05",
   "status": "proved",
   "theorems": [
    "Vctrs.C05_duplicate_detect",
    "Vctrs.C05_duplicate_any",
    "Vctrs.C05_unique_count",
    "Vctrs.C05_agree"
   ],
   "note": "Same hypotheses as C04."
  },
  {
   "property": "C06",
   "status": "proved",
   "theorems": [
    "Vctrs.C06_duplicate_id",
    "Vctrs.C06_same_id_iff"
   ],
   "note": "Same hypotheses as C04."
  },
  {
   "property": "C07",
   "status": "proved",
   "theorems": [
    "Vctrs.C07_match",
    "Vctrs.C07_match_na_propagate",
    "Vctrs.C07_in",
    "Vctrs.C07_in_iff_match",
    "Vctrs.C07_self",
    "Vctrs.C07_unique"
   ],
   "note": "Both na_equal settings; for na_equal = FALSE the hypothesis on the marker hash is C27."
  },
  {
   "property": "C08",
   "status": "proved",
   "theorems": [
    "Vctrs.C08_groups",
    "Vctrs.C08_count",
    "Vctrs.C08_sort_none",
    "Vctrs.C08_sort_location",
    "Vctrs.C08_sort_key",
    "Vctrs.C08_sort_count"
   ],
   "note": "Counts in slot order, and the four orders of vec_count(). The orders by location and by key take vec_order(), R code around base::order(), as an argument that is assumed to order stably."
  },
  {
   "property": "C09",
   "status": "proved",
   "theorems": [
    "Vctrs.C09_intersect",
    "Vctrs.C09_difference",
    "Vctrs.C09_union",
    "Vctrs.C09_symmetric_difference",
    "Vctrs.C09_union_unique",
    "Vctrs.C09_symmetric_differences",
    "Vctrs.C09_difference_twice",
    "Vctrs.C09_shared_out",
    "Vctrs.C09_self"
   ],
   "note": "Model of the four set functions of set.c over an arbitrary equality/hash pair; membership, distinctness and order stated separately."
  },
  {
   "property": "C10",
   "status": "proved",
   "theorems": [
    "Vctrs.C10_group_id",
    "Vctrs.C10_again"
   ],
   "note": "Model of vctrs_group_id; ids characterised by equality, range and order of appearance."
  },
  {
   "property": "C11",
   "status": "proved",
   "theorems": [
    "Vctrs.C11_group_rle"
   ],
   "note": "Model of vctrs_group_rle with the moving length pointer and the slot map; expansion equals vctrs_group_id."
  },
  {
   "property": "C12",
   "status": "proved",
   "theorems": [
    "Vctrs.C12_unique_loc",
    "Vctrs.C12_ids",
    "Vctrs.C12_group_loc"
   ],
   "note": "Model of vec_group_loc; partition, order and key properties."
  },
  {
   "property": "C13",
   "status": "partial",
   "theorems": [
    "Vctrs.C13_detect",
    "Vctrs.C13_detect_df",
    "Vctrs.C13_identify",
    "Vctrs.C13_sizes",
    "Vctrs.C13_vec_run_sizes",
    "Vctrs.C13_locate_partial",
    "Vctrs.C13_locate_overrun",
    "Vctrs.C13_locate_values_partial",
    "Vctrs.C13_locate_not_safe"
   ],
   "note": "Detection (vectors and data frames), ids and sizes are proved in full. vec_locate_run_bounds writes one cell outside its result unless the last visited position is a bound (src/runs.c:66-72): C13_locate_overrun and C13_locate_not_safe prove the overrun, C13_locate_partial the good case, C13_locate_values_partial that the result cells are right."
  },
  {
   "property": "C14",
   "status": "proved",
   "theorems": [
    "Vctrs.C14_unrep",
    "Vctrs.C14_rep_each",
    "Vctrs.C14_again"
   ],
   "note": "For every element equality that is an equivalence."
  },
  {
   "property": "C15",
   "status": "proved",
   "theorems": [
    "Vctrs.C15_rep",
    "Vctrs.C15_rep_each",
    "Vctrs.C15_rep_times",
    "Vctrs.C15_each_times",
    "Vctrs.C15_rep_rep",
    "Vctrs.C15_each_each",
    "Vctrs.C15_rep_c",
    "Vctrs.C15_each_interleave",
    "Vctrs.C15_unique"
   ],
   "note": "Both the results and the exact error conditions, for any object given as times (bare vectors, NULL and objects without a cast to integer; methods of foreign classes are left out)."
  },
  {
   "property": "C16",
   "status": "proved",
   "theorems": [
    "Vctrs.C16_expand_grid",
    "Vctrs.C16_too_large",
    "Vctrs.C16_combinations"
   ],
   "note": "Model of vec_expand_grid (both vary directions) and its size checks; every combination occurs exactly once and row order is the mixed-radix order. Intermediate products above 2^52 are an internal error in the code even when a later input is empty (hypothesis of the theorem; see DESIGN)."
  },
  {
   "property": "C17",
   "status": "proved",
   "theorems": [
    "Vctrs.C17_fill_down",
    "Vctrs.C17_fill_up",
    "Vctrs.C17_spec_determines",
    "Vctrs.C17_leading_missing_changes",
    "Vctrs.C17_arguments",
    "Vctrs.C17_down_missing",
    "Vctrs.C17_up_missing",
    "Vctrs.C17_nothing_missing",
    "Vctrs.C17_again",
    "Vctrs.C17_idempotent",
    "Vctrs.C17_again_limited"
   ],
   "note": "All four loops of fill.c modelled, and the options as R objects (C17_arguments: every direction and max_fill, all outcomes). Leading missings that are not filled stay missing but become a copy of the first (last) element, so NA/NaN can change; stated as C17_leading_missing_changes."
  },
  {
   "property": "C18",
   "status": "proved",
   "theorems": [
    "Vctrs.C18_full",
    "Vctrs.C18_missing_error",
    "Vctrs.C18_selected",
    "Vctrs.C18_scalar",
    "Vctrs.C18_size",
    "Vctrs.C18_names"
   ],
   "note": "Logical subscripts of size n give the locations of the TRUEs in order, with missing elements propagated, removed or errors; scalars and wrong sizes; names in r_lgl_which."
  },
  {
   "property": "C19",
   "status": "partial",
   "theorems": [
    "Vctrs.C19_in_bounds",
    "Vctrs.C19_kept_partial",
    "Vctrs.C19_error",
    "Vctrs.C19_range",
    "Vctrs.C19_remove_missing",
    "Vctrs.C19_arguments",
    "Vctrs.C19_negative_size_partial",
    "Vctrs.C19_negative_size_overflow",
    "Vctrs.C19_negative_size_unwritten",
    "Vctrs.C19_size",
    "Vctrs.C19_size_internal",
    "Vctrs.C19_overflow_witness"
   ],
   "note": "All option combinations except oob=remove with kept missing locations, where the code is proved to be undefined behaviour (abs(NA_INTEGER)); range of the result for every subscript. C19_arguments: options and sizes as R objects. The size is not checked: C19_negative_size_overflow and C19_negative_size_unwritten (negative or missing size with zero = ignore: write out of bounds, unwritten memory), C19_size_internal; C19_negative_size_partial: with oob = error a negative size is an error or acts as 0."
  },
  {
   "property": "C20",
   "status": "proved",
   "theorems": [
    "Vctrs.C20_complement",
    "Vctrs.C20_set",
    "Vctrs.C20_error",
    "Vctrs.C20_split"
   ],
   "note": "Complement, order, insensitivity to repetitions and zeros, and all errors, for every subscript with a negative element."
  },
  {
   "property": "C21",
   "status": "proved",
   "theorems": [
    "Vctrs.C21_first",
    "Vctrs.C21_range",
    "Vctrs.C21_error"
   ],
   "note": "First occurrence of each name in order, missing strings under the three options, and all errors."
  },
  {
   "property": "C22",
   "status": "proved",
   "theorems": [
    "Vctrs.C22_extend",
    "Vctrs.C22_no_hole",
    "Vctrs.C22_repeated"
   ],
   "note": "Accepted iff the extending locations are a permutation of n+1..n+k; equivalent to no hole when not repeated; repeated ones are always errors."
  },
  {
   "property": "C23",
   "status": "proved",
   "theorems": [
    "Vctrs.C23_unique",
    "Vctrs.C23_rule",
    "Vctrs.C23_unchanged",
    "Vctrs.C23_null",
    "Vctrs.C23_minimal",
    "Vctrs.C23_is_unique"
   ],
   "note": "For every vector of names of at most INT_MAX elements, with names of at most INT_MAX - 28 bytes (longer ones overflow an int in names.c:320): result distinct, not missing, not empty, and given by the rule of Spec.UniqueRepair. Unchanged is proved for distinct valid names without a ...<digits> suffix: the code strips such suffixes by design."
  },
  {
   "property": "C24",
   "status": "partial",
   "theorems": [
    "Vctrs.C24_idempotent_partial",
    "Vctrs.C24_twice",
    "Vctrs.C24_idempotent",
    "Vctrs.C24_not_idempotent"
   ],
   "note": "False as stated: '......1' is repaired to '...' and then to '...1' (C24_not_idempotent). Idempotent iff the first repair yields no name '...'; a second repair is always final."
  },
  {
   "property": "C25",
   "status": "partial",
   "theorems": [
    "Vctrs.C25_never_missing",
    "Vctrs.C25_same",
    "Vctrs.C25_same_atomic",
    "Vctrs.C25_reflexive",
    "Vctrs.C25_symmetric_partial",
    "Vctrs.C25_symmetric_atomic",
    "Vctrs.C25_transitive",
    "Vctrs.C25_compat",
    "Vctrs.C25_nolist",
    "Vctrs.C25_list_compat",
    "Vctrs.C25_not_symmetric"
   ],
   "note": "Never NA, reflexive and transitive on all values including lists; symmetric and exactly 'same row' on vectors and data frames without lists and on list elements with equally many attributes. Symmetry fails on other list elements (C25_not_symmetric)."
  },
  {
   "property": "C26",
   "status": "proved",
   "theorems": [
    "Vctrs.C26_same_hash",
    "Vctrs.C26_equal_hash",
    "Vctrs.C26_dictionary_rows",
    "Vctrs.C26_dictionary_vector",
    "Vctrs.C26_list_elements",
    "Vctrs.C26_list_attributes",
    "Vctrs.C26_compat",
    "Vctrs.C26_nolist"
   ],
   "note": "Same rows hash the same, for vectors and data frames, with the dictionary's hashes; list elements included when attribute counts agree (C26_list_attributes shows the rest fails)."
  },
  {
   "property": "C27",
   "status": "partial",
   "theorems": [
    "Vctrs.C27_incomplete_rows_partial",
    "Vctrs.C27_no_raw_columns",
    "Vctrs.C27_vector",
    "Vctrs.C27_in_rows",
    "Vctrs.C27_flat",
    "Vctrs.C27_raw_column"
   ],
   "note": "Incomplete rows are marked HASH_MISSING except when a raw column follows a missing one (C27_raw_column is the counterexample)."
  },
  {
   "property": "C28",
   "status": "proved",
   "theorems": [
    "Vctrs.C28_order",
    "Vctrs.C28_antisymmetric",
    "Vctrs.C28_transitive",
    "Vctrs.C28_equal",
    "Vctrs.C28_propagate",
    "Vctrs.C28_comparable"
   ],
   "note": "Lexicographic order over leaves of nested data frames: range, antisymmetry, transitivity, agreement with vec_equal, NA exactly where a missing value is met before a difference."
  },
  {
   "property": "C29",
   "status": "proved",
   "theorems": [
    "Vctrs.C29_detect_missing",
    "Vctrs.C29_detect_complete",
    "Vctrs.C29_first_missing",
    "Vctrs.C29_any_missing",
    "Vctrs.C29_locate_complete",
    "Vctrs.C29_sized"
   ],
   "note": "Through the proxy, for data frames nested to any depth; zero columns give TRUE for both. The original wording (FALSE for zero columns) was wrong and has been corrected."
  },
  {
   "property": "C30",
   "status": "proved",
   "theorems": [
    "Vctrs.C30_order",
    "Vctrs.C30_order_only",
    "Vctrs.C30_ties",
    "Vctrs.C30_sorted",
    "Vctrs.C30_twice"
   ],
   "note": "vec_order_info_impl() on integers (sortedness detection, insertion, counting and radix sort) returns the unique stable order and the tie group sizes with the largest, for all integers, directions and na_value, with its static counts and all TRUELENGTHs as before."
  },
  {
   "property": "C31",
   "status": "proved",
   "theorems": [
    "Vctrs.C31_range",
    "Vctrs.C31_numbers",
    "Vctrs.C31_missing",
    "Vctrs.C31_nan",
    "Vctrs.C31_same",
    "Vctrs.C31_zero"
   ],
   "note": "All 2^64 patterns: keys of numbers compare as the numeric values, reversed if descending; -0 and 0 equal; NA and NaN outside all numbers on the requested side, NaN between when distinct; payloads do not matter."
  },
  {
   "property": "C32",
   "status": "proved",
   "theorems": [
    "Vctrs.C32_sorted",
    "Vctrs.C32_twice",
    "Vctrs.C32_order",
    "Vctrs.C32_order_only",
    "Vctrs.C32_ties"
   ],
   "note": "As C30 for doubles, NaN distinct from NA or not; C32_ties says which doubles are tied."
  },
  {
   "property": "C33",
   "status": "proved",
   "theorems": [
    "Vctrs.C33_sorted",
    "Vctrs.C33_twice",
    "Vctrs.C33_order",
    "Vctrs.C33_order_only",
    "Vctrs.C33_ties"
   ],
   "note": "As C30 for strings by bytes (strings in one encoding, no collation function): unique strings are marked through TRUELENGTH, sorted by the string radix sort, and ordered by rank."
  },
  {
   "property": "C34",
   "status": "partial",
   "theorems": [
    "Vctrs.C34_unique_partial",
    "Vctrs.C34_sorted_partial",
    "Vctrs.C34_partial",
    "Vctrs.C34_order_only_partial",
    "Vctrs.C34_out_of_bounds",
    "Vctrs.C34_back",
    "Vctrs.C34_forth",
    "Vctrs.C34_loop",
    "Vctrs.C34_never_ends"
   ],
   "note": "Lexicographic, stable, terminating and memory safe when no complex column follows the first one (data frame columns taken apart). For other data frames the code is wrong: C34_out_of_bounds reads column -1, C34_never_ends loops forever."
  },
  {
   "property": "C35",
   "status": "partial",
   "theorems": [
    "Vctrs.C35_restored",
    "Vctrs.C35_groups",
    "Vctrs.C35_appearance_partial",
    "Vctrs.C35_returns",
    "Vctrs.C35_negative"
   ],
   "note": "Sorted order and grouping: restored for any columns and any prior TRUELENGTHs. Order of appearance: restored when the prior TRUELENGTHs are not negative; C35_negative shows an out of bounds write otherwise. The clean-up after an R error or interrupt is not modelled."
  },
  {
   "property": "C36",
   "status": "partial",
   "theorems": [
    "Vctrs.C36_partial",
    "Vctrs.C36_first_partial"
   ],
   "note": "For every vector, and every data frame where no complex column follows the first one: keys strictly increasing, each group has exactly the rows tied with its key in increasing order. The excluded data frames are those of C34."
  },
  {
   "property": "C37",
   "status": "partial",
   "theorems": [
    "Vctrs.C37_partial",
    "Vctrs.C37_vector",
    "Vctrs.C37_out_of_bounds",
    "Vctrs.C37_methods",
    "Vctrs.C37_inverse_partial",
    "Vctrs.C37_methods_partial"
   ],
   "note": "vec_rank for vectors and data frames against counts of rows (IsRank), all ties methods, both incomplete options; complete for atomic vectors (C37_vector). Missing: data frames in which a complex vector is not the first, for which vec_order_info itself fails (C37_out_of_bounds, C34)."
  },
  {
   "property": "C38",
   "status": "proved",
   "theorems": [
    "Vctrs.C38_groups",
    "Vctrs.C38_locate_groups",
    "Vctrs.C38_determined",
    "Vctrs.C38_idempotent"
   ],
   "note": "src/interval.c: vec_interval_group_info and both callers, for any number of columns of ordered types, any nesting of data frames; missing intervals grouped or dropped. The order is that of the modelled vec_order (C34)."
  },
  {
   "property": "C39",
   "status": "proved",
   "theorems": [
    "Vctrs.C39_twice",
    "Vctrs.C39_complement"
   ],
   "note": "All types with an order, data frames too, all optional bounds: sorted, disjoint, non-empty intervals that cover exactly the points of the range that no input interval covers. Domain as documented (start missing iff end missing, start < end); ptype2/cast not modelled (values of one type); n < INT_MAX."
  },
  {
   "property": "C40",
   "status": "proved",
   "theorems": [
    "Vctrs.C40_containers",
    "Vctrs.C40_groups",
    "Vctrs.C40_twice"
   ],
   "note": "src/interval.c: vec_interval_locate_containers; intervals need not have start < end."
  },
  {
   "property": "C41",
   "status": "proved",
   "theorems": [
    "Vctrs.C41_join",
    "Vctrs.C41_undefined",
    "Vctrs.C41_outcome",
    "Vctrs.C41_idempotent",
    "Vctrs.C41_commutative",
    "Vctrs.C41_associative",
    "Vctrs.C41_grouping",
    "Vctrs.C41_null",
    "Vctrs.C41_unspecified"
   ],
   "note": "vec_ptype2 on NULL, unspecified and bare vectors with or without dimensions: idempotent, commutative (also in the error), associative where both groupings are defined, NULL and unspecified neutral; the result is the least type above both, and the exact set of undefined pairs is proved (no type above both, shapes that clash, and logical with complex). C41_grouping shows that one grouping may be defined and the other not."
  },
  {
   "property": "C42",
   "status": "partial",
   "theorems": [
    "Vctrs.C42_order",
    "Vctrs.C42_order_dependent",
    "Vctrs.C42_partial",
    "Vctrs.C42_agree",
    "Vctrs.C42_join",
    "Vctrs.C42_pairwise",
    "Vctrs.C42_ptype"
   ],
   "note": "The property fails in the code: vec_ptype_common(TRUE, 1L, 1i) is complex and vec_ptype_common(TRUE, 1i, 1L) is an error, because logical and complex have no common type (C42_order, C42_order_dependent). Proved for arguments without both logical and complex vectors (C42_partial); for all arguments, orders that succeed agree (C42_agree), the result is the least type above all (C42_join), and it exists if every two arguments have a common type (C42_pairwise)."
  },
  {
   "property": "C43",
   "status": "proved",
   "theorems": [
    "Vctrs.C43_keeps",
    "Vctrs.C43_succeeds",
    "Vctrs.C43_lossy",
    "Vctrs.C43_round_trip",
    "Vctrs.C43_round_trip_exact",
    "Vctrs.C43_double_to_integer",
    "Vctrs.C43_to_double",
    "Vctrs.C43_character",
    "Vctrs.C43_two_steps"
   ],
   "note": "All nine casts between logical, integer and double vectors, and chr_as_logical. A cast returns iff every element is representable in the target (all doubles, all ints), keeps what every element stands for, and casting back succeeds with the same cells; otherwise it is a lossy cast error and never undefined behaviour (the C double to int conversion is modelled with its range precondition)."
  },
  {
   "property": "C44",
   "status": "proved",
   "theorems": [
    "Vctrs.C44_union",
    "Vctrs.C44_union_levels",
    "Vctrs.C44_ordered",
    "Vctrs.C44_cast",
    "Vctrs.C44_cast_native",
    "Vctrs.C44_cast_template",
    "Vctrs.C44_as_character",
    "Vctrs.C44_chr",
    "Vctrs.C44_chr_template",
    "Vctrs.C44_round_trip",
    "Vctrs.C44_assoc",
    "Vctrs.C44_combine"
   ],
   "note": "Levels of the common type, casts factor/factor, factor/character and character/factor for all level sets and codes and any string hash. The C cast reports a loss exactly when a level (used or not) is absent (C44_cast_native); vec_cast() then runs the R method, so that the call fails exactly when the string of an element is absent (C44_cast). The R method is modelled from R/type-factor.R."
  },
  {
   "property": "C45",
   "status": "partial",
   "theorems": [
    "Vctrs.C45_ptype2",
    "Vctrs.C45_ptype2_fails",
    "Vctrs.C45_order",
    "Vctrs.C45_cast",
    "Vctrs.C45_cast_lossy_partial",
    "Vctrs.C45_duplicate_names",
    "Vctrs.C45_assoc",
    "Vctrs.C45_cast_common",
    "Vctrs.C45_self",
    "Vctrs.C45_tibble",
    "Vctrs.C45_tibble_cast",
    "Vctrs.C45_tibble_assoc",
    "Vctrs.C45_tibble_common"
   ],
   "note": "Common type: columns, order, failure exactly when a column fails, independence of argument order. Cast: exactly the target's columns, failure when x has extra columns. What is done to one column is a parameter, so nested data frames are covered. Partial because with a duplicated name in the target the code drops an extra column silently (C45_duplicate_names): the loss is proved for distinct names only (C45_cast_lossy_partial). Row names and attributes are not modelled."
  },
  {
   "property": "C46",
   "status": "proved",
   "theorems": [
    "Vctrs.C46_assign",
    "Vctrs.C46_assign_size",
    "Vctrs.C46_slice",
    "Vctrs.C46_read_back",
    "Vctrs.C46_round_trip",
    "Vctrs.C46_unshared",
    "Vctrs.C46_assign_array",
    "Vctrs.C46_assign_df",
    "Vctrs.C46_slice_slice",
    "Vctrs.C46_assign_slice",
    "Vctrs.C46_assign_twice",
    "Vctrs.C46_assign_apart",
    "Vctrs.C46_seq_increasing",
    "Vctrs.C46_seq_decreasing",
    "Vctrs.C46_seq_error",
    "Vctrs.C46_seq_locations",
    "Vctrs.C46_rep",
    "Vctrs.C46_assign_seq"
   ],
   "note": "Bare vectors, arrays, data frames of bare columns; locations already converted (vec_as_location is C18-C22); sharing modelled on an explicit heap C46_seq_increasing, C46_seq_decreasing, C46_seq_error, C46_seq_locations: slices by sequences are runs of elements, forwards or backwards. C46_rep and C46_assign_seq: repetitions of one element, and assignment to a sequence."
  },
  {
   "property": "C47",
   "status": "proved",
   "theorems": [
    "Vctrs.C47_chop_indices",
    "Vctrs.C47_chop_error",
    "Vctrs.C47_chop_each",
    "Vctrs.C47_chop_both",
    "Vctrs.C47_chop_sizes",
    "Vctrs.C47_chop_df",
    "Vctrs.C47_unchop",
    "Vctrs.C47_unchop_error",
    "Vctrs.C47_round_trip",
    "Vctrs.C47_round_trip_empty",
    "Vctrs.C47_sizes_round_trip"
   ],
   "note": "vec_chop by indices, sizes and elements, chop_df, list_unchop (last location wins, NULL elements skipped, recycling), round trips; the only exception (empty list of indices gives NULL) is C47_round_trip_empty. Types, names and class fallbacks are outside the model."
  },
  {
   "property": "C48",
   "status": "proved",
   "theorems": [
    "Vctrs.C48_indices",
    "Vctrs.C48_too_large",
    "Vctrs.C48_permutation",
    "Vctrs.C48_interleave",
    "Vctrs.C48_errors"
   ],
   "note": "vec_interleave_indices and vec_interleave() on vectors of one type: indices, permutation, element formula, size limit, errors."
  },
  {
   "property": "C49",
   "status": "partial",
   "theorems": [
    "Vctrs.C49_slice_array_partial",
    "Vctrs.C49_strides_overflow",
    "Vctrs.C49_missing_overflow",
    "Vctrs.C49_slice_slice_partial"
   ],
   "note": "sliceShaped (index vector, compact seq, compact rep) for all dims whose int products fit; overflow of vec_strides()/vec_init() products proved as counterexamples (C49_strides_overflow, C49_missing_overflow)"
  },
  {
   "property": "C50",
   "status": "partial",
   "theorems": [
    "Vctrs.C50_locate_matches_partial",
    "Vctrs.C50_locate_matches",
    "Vctrs.C50_same_report",
    "Vctrs.C50_table_ok",
    "Vctrs.C50_complex",
    "Vctrs.C50_strings",
    "Vctrs.C50_call",
    "Vctrs.C50_noFlag",
    "Vctrs.C50_vec_ok",
    "Vctrs.C50_invalid",
    "Vctrs.C50_incomplete_pruned",
    "Vctrs.C50_filter_before_condition",
    "Vctrs.C50_packed_ok",
    "Vctrs.C50_packed_missing",
    "Vctrs.C50_exchange"
   ],
   "note": "Proved for vectors and data frames of vectors or packed data frame columns, all conditions, filters, incomplete, no_match, remaining, multiple and relationship options. Partial because the code violates the property: C50_incomplete_pruned (incomplete needles not reported with ==), C50_filter_before_condition (a filter before the last column loses matches), C50_packed_missing (packed columns with other conditions: matches lost, incomplete rows reported)."
  },
  {
   "property": "C51",
   "status": "partial",
   "theorems": [
    "Vctrs.C51_partial",
    "Vctrs.C51_vector",
    "Vctrs.C51_out_of_bounds"
   ],
   "note": "C51_vector: for vectors of every orderable type, without exception. C51_partial: data frames where only the first leaf may be complex. C51_out_of_bounds: otherwise vec_order_info() reads out of bounds (see C34), so the full statement is false."
  },
  {
   "property": "C52",
   "status": "proved",
   "theorems": [
    "Vctrs.C52_round_trip",
    "Vctrs.C52_missing",
    "Vctrs.C52_compare",
    "Vctrs.C52_propagate"
   ],
   "note": "int64_unpack/int64_pack, integer64 proxy and restore on all 2^64 bit patterns: restoring the proxy gives the vector back (no conversion is out of range), NA rows are missing in both columns and no other row is, and vec_compare on the proxies (the model of C28) orders exactly as the signed integers, with NA propagation."
  },
  {
   "property": "C53",
   "status": "partial",
   "theorems": [
    "Vctrs.C53_isRle",
    "Vctrs.C53_length",
    "Vctrs.C53_elt",
    "Vctrs.C53_extract_partial",
    "Vctrs.C53_extract_out_of_bounds",
    "Vctrs.C53_materialize",
    "Vctrs.C53_materialized"
   ],
   "note": "Length, Elt, find_rle_index, Extract_subset and Materialize against the expanded vector, for all encodings incl. empty runs, lazy and materialised. Extract_subset is proved for locations within bounds or missing (all that vctrs itself passes); for locations past the end, which R's [ passes on, the code repeats the last string or reads out of bounds (C53_extract_out_of_bounds), so the full statement is false."
  },
  {
   "property": "C54",
   "status": "proved",
   "theorems": [
    "Vctrs.C54_common_shape",
    "Vctrs.C54_fails",
    "Vctrs.C54_unique",
    "Vctrs.C54_symmetric",
    "Vctrs.C54_associative",
    "Vctrs.C54_neutral"
   ],
   "note": "Common shape of two arrays for all dimension vectors: the shape of the spec unless some axis after the first clashes (C54_common_shape, C54_fails, C54_unique), symmetric, associative including the error, idempotent, and vectors without dimensions are neutral."
  },
  {
   "property": "C55",
   "status": "proved",
   "theorems": [
    "Vctrs.C55_locations",
    "Vctrs.C55_slice",
    "Vctrs.C55_assign",
    "Vctrs.C55_assign_error"
   ],
   "note": "All subscript types with the default options; combines C18, C19, C21, C46."
  },
  {
   "property": "C56",
   "status": "proved",
   "theorems": [
    "Vctrs.C56_concat",
    "Vctrs.C56_null",
    "Vctrs.C56_assoc"
   ],
   "note": "vec_c_opts main loop over vectors of one type."
  },
  {
   "property": "C57",
   "status": "proved",
   "theorems": [
    "Vctrs.C57_proxy",
    "Vctrs.C57_flatten",
    "Vctrs.C57_equal",
    "Vctrs.C57_compare",
    "Vctrs.C57_match"
   ],
   "note": "Model of df_proxy, df_flatten and vec_proxy_unwrap on bare vectors."
  },
  {
   "property": "C58",
   "status": "proved",
   "theorems": [
    "Vctrs.C58_equal",
    "Vctrs.C58_match"
   ],
   "note": "For atomic columns of nested data frames."
  },
  {
   "property": "C59",
   "status": "proved",
   "theorems": [
    "Vctrs.C59_slice",
    "Vctrs.C59_error",
    "Vctrs.C59_init",
    "Vctrs.C59_row_names",
    "Vctrs.C59_row_names_kept"
   ],
   "note": "Bare values (no class but data.frame, no dimensions). The rows of every column and its names are the located ones; the row names are repaired twice, as the code does. Exact result for every subscript that C55 accepts; the error of vec_as_location is the only one."
  },
  {
   "property": "C60",
   "status": "proved",
   "theorems": [
    "Vctrs.C60_df_list",
    "Vctrs.C60_data_frame",
    "Vctrs.C60_error",
    "Vctrs.C60_determined"
   ],
   "note": "Exact columns, names and number of rows for all inputs; error exactly for incompatible sizes. Name repair none, minimal and unique (the others call back into R)."
  },
  {
   "property": "C61",
   "status": "proved",
   "theorems": [
    "Vctrs.C61_cbind",
    "Vctrs.C61_error",
    "Vctrs.C61_data_frame"
   ],
   "note": "Without .ptype, arrays and classes. Exact columns, names and row names; the same result as data_frame() when no input has row names; error exactly for incompatible sizes."
  },
  {
   "property": "C62",
   "status": "partial",
   "theorems": [
    "Vctrs.C62_rbind_named_partial",
    "Vctrs.C62_rbind",
    "Vctrs.C62_names_to",
    "Vctrs.C62_positions",
    "Vctrs.C62_place",
    "Vctrs.C62_column",
    "Vctrs.C62_column_positions",
    "Vctrs.C62_zap",
    "Vctrs.C62_unmerged",
    "Vctrs.C62_blank",
    "Vctrs.C62_determined"
   ],
   "note": "Exact rows, columns, row names and names column, and its place when .names_to is a string (C62_column: the first column of that name, or a new one in front; vec_cast_common() is a parameter there). Partial: with named inputs, an input with an empty name, without row names and with other than one row gives an internal error (bind.c:222 compares the wrong variable; proved as C62_blank), so the named case is proved for the other inputs; unnamed inputs and .names_to are proved in full. The name specification is any function (glue strings are R code)."
  },
  {
   "property": "C63",
   "status": "proved",
   "theorems": [
    "Vctrs.C63_combine",
    "Vctrs.C63_unnamed",
    "Vctrs.C63_unmerged",
    "Vctrs.C63_determined"
   ],
   "note": "Bare vectors and data frames without class fallbacks; .ptype without row names. Exact elements, columns, names and row names for every name specification (any function; glue strings are R code); error when a name cannot be merged. Complements C56, which covers elements only."
  },
  {
   "property": "C64",
   "status": "proved",
   "theorems": [
    "Vctrs.C64_assign",
    "Vctrs.C64_assign_exact",
    "Vctrs.C64_error",
    "Vctrs.C64_determined",
    "Vctrs.C64_read_back"
   ],
   "note": "vec_assign on vectors, lists and data frames at any depth: last write wins, names as asked, row names repaired; errors; read back; determined."
  },
  {
   "property": "C65",
   "status": "proved",
   "theorems": [
    "Vctrs.C65_unchop",
    "Vctrs.C65_null",
    "Vctrs.C65_index_error",
    "Vctrs.C65_input_error",
    "Vctrs.C65_determined",
    "Vctrs.C65_stale_name"
   ],
   "note": "list_unchop with indices: elements, columns, merged names, errors; determined when every element is located; witness of a stale name with overlapping indices."
  },
  {
   "property": "C66",
   "status": "proved",
   "theorems": [
    "Vctrs.C66_paste",
    "Vctrs.C66_paste_overflow",
    "Vctrs.C66_outer"
   ],
   "note": "The stack buffer is a list of 4096 possibly uninitialised bytes. Strings are without NUL, as R's are. Beyond int the sum of lengths is undefined behaviour, proved as such."
  },
  {
   "property": "C67",
   "status": "proved",
   "theorems": [
    "Vctrs.C67_indices",
    "Vctrs.C67_sizes",
    "Vctrs.C67_each",
    "Vctrs.C67_error",
    "Vctrs.C67_null",
    "Vctrs.C67_round_trip",
    "Vctrs.C67_row_names"
   ],
   "note": "Vectors, lists and data frames as NVal; chop_shaped and chop_fallback are left out. The round trip is for values without row names; C67_row_names is the witness that repaired-looking row names change."
  },
  {
   "property": "C68",
   "status": "proved",
   "theorems": [
    "Vctrs.C68_common",
    "Vctrs.C68_corrupt",
    "Vctrs.C68_perm",
    "Vctrs.C68_order",
    "Vctrs.C68_one",
    "Vctrs.C68_associative",
    "Vctrs.C68_posixct",
    "Vctrs.C68_posixct_error",
    "Vctrs.C68_as_date",
    "Vctrs.C68_new",
    "Vctrs.C68_new_error",
    "Vctrs.C68_lt_ct",
    "Vctrs.C68_ct_lt",
    "Vctrs.C68_lt_lt",
    "Vctrs.C68_date_time",
    "Vctrs.C68_date_date",
    "Vctrs.C68_lt_date",
    "Vctrs.C68_date_back",
    "Vctrs.C68_casts_error"
   ],
   "note": "All inputs; the calendar of R (as.Date, as.POSIXct and as.POSIXlt on one element) is a parameter, also for casts from and to POSIXlt. Parsing is outside. The property holds in its stated form: the dependence on order with two zones is part of the statement."
  },
  {
   "property": "C69",
   "status": "proved",
   "theorems": [
    "Vctrs.C69_subscript",
    "Vctrs.C69_error",
    "Vctrs.C69_idempotent",
    "Vctrs.C69_double",
    "Vctrs.C69_fractional"
   ],
   "note": "vec_as_subscript(): exact set of accepted objects and their converted value; doubles exactly as integers; idempotent; everything else aborts. vctrs casts of classed objects are parameters."
  },
  {
   "property": "C70",
   "status": "proved",
   "theorems": [
    "Vctrs.C70_int",
    "Vctrs.C70_invert",
    "Vctrs.C70_lgl",
    "Vctrs.C70_lgl_scalar",
    "Vctrs.C70_chr",
    "Vctrs.C70_unnamed"
   ],
   "note": "Named subscripts give the locations and errors of the unnamed model (C18-C22), and the names of the kept elements in order; stated for every object that vec_as_subscript() converts."
  },
  {
   "property": "C71",
   "status": "partial",
   "theorems": [
    "Vctrs.C71_find",
    "Vctrs.C71_error_partial",
    "Vctrs.C71_nan",
    "Vctrs.C71_fields",
    "Vctrs.C71_get",
    "Vctrs.C71_set",
    "Vctrs.C71_set_get"
   ],
   "note": "The accepted indices, reading and writing are proved for all inputs (C71_find, C71_get, C71_set, C71_set_get). That every other index is an error fails for NaN: C71_nan proves undefined behaviour, C71_error_partial proves the rest."
  },
  {
   "property": "C72",
   "status": "proved",
   "theorems": [
    "Vctrs.C72_normalize",
    "Vctrs.C72_no_error",
    "Vctrs.C72_shared",
    "Vctrs.C72_same_object",
    "Vctrs.C72_idempotent"
   ],
   "note": "All for every heap, object and encoding. The recursion is bounded by fuel, at least the nesting depth of the object."
  },
  {
   "property": "C73",
   "status": "proved",
   "theorems": [
    "Vctrs.C73_split",
    "Vctrs.C73_split_error",
    "Vctrs.C73_split_unchop",
    "Vctrs.C73_drop_empty",
    "Vctrs.C73_drop_empty_error",
    "Vctrs.C73_check_size",
    "Vctrs.C73_check_vectors"
   ],
   "note": "All inputs. The equality of `by` is any equivalence with a consistent hash; sizes of list elements are a function that may fail."
  },
  {
   "property": "C74",
   "status": "partial",
   "theorems": [
    "Vctrs.C74_options",
    "Vctrs.C74_minimal",
    "Vctrs.C74_minimal_iff",
    "Vctrs.C74_custom",
    "Vctrs.C74_check_unique",
    "Vctrs.C74_unique_checks_partial",
    "Vctrs.C74_unique_checks",
    "Vctrs.C74_unique_rejected",
    "Vctrs.C74_validated",
    "Vctrs.C74_validated_quiet_partial",
    "Vctrs.C74_quiet_lost",
    "Vctrs.C74_entry"
   ],
   "note": "Two parts are false in the code and kept as _partial with witnesses: names repaired by unique fail check_unique iff the repair produces `...` (from ......1), and validating several strings loses the quietness of the first. Everything else is proved for all inputs."
  },
  {
   "property": "C75",
   "status": "proved",
   "theorems": [
    "Vctrs.C75_trace",
    "Vctrs.C75_once",
    "Vctrs.C75_lazy"
   ],
   "note": "All sequences. The function does not use the lazy vector itself."
  },
  {
   "property": "C76",
   "status": "proved",
   "theorems": [
    "Vctrs.C76_tag",
    "Vctrs.C76_error",
    "Vctrs.C76_total"
   ],
   "note": "Tags up to INT_MAX bytes without NUL (strings of R have none). C76_total: every chain has a text or an error."
  },
  {
   "property": "C77",
   "status": "partial",
   "theorems": [
    "Vctrs.C77_fold",
    "Vctrs.C77_next_partial",
    "Vctrs.C77_curr_partial",
    "Vctrs.C77_positions_partial",
    "Vctrs.C77_next_plain",
    "Vctrs.C77_wrong_name",
    "Vctrs.C77_wrong_position",
    "Vctrs.C77_stale",
    "Vctrs.C77_left_wrong",
    "Vctrs.C77_left_partial"
   ],
   "note": "C77_fold gives the exact result and tags for all inputs. Tags are right without names and boxes (C77_positions_partial), for the failing input always without boxes (C77_next_plain). The code violates the rest: C77_wrong_name, C77_wrong_position, C77_stale."
  },
  {
   "property": "C78",
   "status": "proved",
   "theorems": [
    "Vctrs.C78_default",
    "Vctrs.C78_bare",
    "Vctrs.C78_others",
    "Vctrs.C78_df",
    "Vctrs.C78_set_attributes",
    "Vctrs.C78_set_dimnames",
    "Vctrs.C78_set_unnamed"
   ],
   "note": "For all heaps and attributes, with aliasing. vec_bare_df_restore is modelled without recursion into columns; dispatch to R methods is not modelled."
  },
  {
   "property": "C79",
   "status": "proved",
   "theorems": [
    "Vctrs.C79_class",
    "Vctrs.C79_df",
    "Vctrs.C79_list",
    "Vctrs.C79_disjoint",
    "Vctrs.C79_vector",
    "Vctrs.C79_vector_proxy",
    "Vctrs.C79_lists_are_vectors",
    "Vctrs.C79_size",
    "Vctrs.C79_scalar",
    "Vctrs.C79_list_sizes",
    "Vctrs.C79_list_sizes_other",
    "Vctrs.C79_all_size",
    "Vctrs.C79_all_vectors",
    "Vctrs.C79_all_vectors_not_list",
    "Vctrs.C79_unspecified",
    "Vctrs.C79_typeof",
    "Vctrs.C79_missing_rows",
    "Vctrs.C79_long"
   ],
   "note": "For all objects and methods for vec_proxy(). Negative results: C79_long (list_sizes() wraps around beyond 2^31 - 1), C79_missing_rows (compact row names of a missing number)."
  },
  {
   "property": "C80",
   "status": "proved",
   "theorems": [
    "Vctrs.C80_new",
    "Vctrs.C80_rownames",
    "Vctrs.C80_is_df",
    "Vctrs.C80_errors",
    "Vctrs.C80_long"
   ],
   "note": "For all inputs with at most 2^31 - 1 rows; C80_long shows that the bound is needed."
  },
  {
   "property": "C81",
   "status": "proved",
   "theorems": [
    "Vctrs.C81_table",
    "Vctrs.C81_sym",
    "Vctrs.C81_common",
    "Vctrs.C81_common_complete",
    "Vctrs.C81_cast",
    "Vctrs.C81_cast_iff",
    "Vctrs.C81_complete",
    "Vctrs.C81_base",
    "Vctrs.C81_base_numeric"
   ],
   "note": "The whole tables, by kernel evaluation lifted to all types and classes; C81_base for casts between base types. The functions called are modelled elsewhere (C24, C25, C41 and others) or not at all."
  },
  {
   "property": "C82",
   "status": "proved",
   "theorems": [
    "Vctrs.C82_name",
    "Vctrs.C82_overflow",
    "Vctrs.C82_find",
    "Vctrs.C82_none",
    "Vctrs.C82_long",
    "Vctrs.C82_bare",
    "Vctrs.C82_double",
    "Vctrs.C82_distinct",
    "Vctrs.C82_ambiguous"
   ],
   "note": "For all names and environments. Lengths of names whose sum exceeds INT_MAX are undefined behaviour (C82_overflow). S4 tables are looked up likewise and not modelled."
  },
  {
   "property": "C83",
   "status": "partial",
   "theorems": [
    "Vctrs.C83_fallback",
    "Vctrs.C83_rbind",
    "Vctrs.C83_vec_c_partial",
    "Vctrs.C83_order_wrong",
    "Vctrs.C83_missing_ub",
    "Vctrs.C83_unchop_wrong",
    "Vctrs.C83_null_asymmetric"
   ],
   "note": "C83_fallback holds for all nestings and C83_rbind for all data frames without data frame columns. For vec_c() only inputs with the same names in the same order (C83_vec_c_partial); otherwise the code is wrong (C83_order_wrong, C83_missing_ub), and list_unchop() ignores the locations (C83_unchop_wrong)."
  },
  {
   "property": "C84",
   "status": "partial",
   "theorems": [
    "Vctrs.C84_flat",
    "Vctrs.C84_method",
    "Vctrs.C84_columns",
    "Vctrs.C84_fuel",
    "Vctrs.C84_size_partial",
    "Vctrs.C84_plain",
    "Vctrs.C84_array",
    "Vctrs.C84_list",
    "Vctrs.C84_raw_size_wrong",
    "Vctrs.C84_raw_rows_wrong",
    "Vctrs.C84_array_wrong",
    "Vctrs.C84_recurse_partial",
    "Vctrs.C84_recurse_extra",
    "Vctrs.C84_recurse_moved",
    "Vctrs.C84_recurse_target"
   ],
   "note": "For all methods. The number of rows is kept except for raw arrays, where the code is wrong (C84_raw_size_wrong, C84_raw_rows_wrong). For arrays with a class the weaker methods are not used (C84_array_wrong). Objects come back from recursive proxies if proxies of data frames keep their columns (C84_recurse_partial); otherwise the code is wrong (C84_recurse_extra, C84_recurse_moved). A data frame restored to an object without a data frame proxy is an internal error (C84_recurse_target)."
  },
  {
   "property": "C85",
   "status": "partial",
   "theorems": [
    "Vctrs.C85_growable",
    "Vctrs.C85_growable_overflow",
    "Vctrs.C85_unique_partial",
    "Vctrs.C85_unique_wrong",
    "Vctrs.C85_dyn",
    "Vctrs.C85_interval",
    "Vctrs.C85_match",
    "Vctrs.C85_dyn_zero"
   ],
   "note": "Dynamic arrays: proved. struct growable: proved up to the last capacity that is an int; vec_unique_loc() of more than 2^30 distinct elements overflows (C85_unique_wrong)."
  },
  {
   "property": "C86",
   "status": "partial",
   "theorems": [
    "Vctrs.C86_bracket",
    "Vctrs.C86_c_partial",
    "Vctrs.C86_c_wrong",
    "Vctrs.C86_c_name_spec",
    "Vctrs.C86_unchop_partial",
    "Vctrs.C86_unchop_wrong",
    "Vctrs.C86_unchop_error"
   ],
   "note": "C86_c_partial: concatenation when no input is empty or none unspecified; C86_c_wrong: in every other case the result has too many elements. C86_unchop_partial: the C47 specification when the index of every NULL is empty (and no index is empty when an input is unspecified); C86_unchop_wrong: counterexample for a NULL with a non-empty index. C86_c_name_spec, C86_unchop_error: errors."
  },
  {
   "property": "C87",
   "status": "partial",
   "theorems": [
    "Vctrs.C87_order_info",
    "Vctrs.C87_none",
    "Vctrs.C87_order",
    "Vctrs.C87_vec_order",
    "Vctrs.C87_sorted_groups",
    "Vctrs.C87_rank",
    "Vctrs.C87_error_partial",
    "Vctrs.C87_array_out_of_bounds"
   ],
   "note": "C87_order_info (equality with ordering of the replaced vector), C87_order (stable order and tie groups of the replaced rows), C87_sorted_groups, C87_rank, C87_none; C87_error_partial: functions that fail, give another type or another length, results without dimensions. False for arrays: C87_array_out_of_bounds (a result with the right number of rows but no strings is not an error, strings are read out of bounds)."
  },
  {
   "property": "C88",
   "status": "partial",
   "theorems": [
    "Vctrs.C88_unique_partial",
    "Vctrs.C88_unique_wrong",
    "Vctrs.C88_unique_out_of_bounds",
    "Vctrs.C88_set_partial",
    "Vctrs.C88_remove",
    "Vctrs.C88_error",
    "Vctrs.C88_pad",
    "Vctrs.C88_df_wrong"
   ],
   "note": "C88_set_partial: names without dimensions on every vector, array and data frame (class methods are R code); C88_remove: NULL; C88_error: wrong type or size; C88_unique_partial: unique repair when there is one string per row. False for a matrix of names: C88_unique_wrong (duplicates are kept), C88_unique_out_of_bounds (read past the end), C88_df_wrong (vec_set_names() makes a data frame of 2 rows have 4 row names)."
  },
  {
   "property": "C89",
   "status": "partial",
   "theorems": [
    "Vctrs.C89_sizes_partial",
    "Vctrs.C89_all_size",
    "Vctrs.C89_agree_partial",
    "Vctrs.C89_sizes_wrong",
    "Vctrs.C89_out_of_bounds",
    "Vctrs.C89_drop_empty_partial",
    "Vctrs.C89_drop_empty_wrong",
    "Vctrs.C89_unchop_partial",
    "Vctrs.C89_unchop_wrong"
   ],
   "note": "C89_sizes_partial, C89_agree_partial, C89_unchop_partial: lists with one cell per row; C89_drop_empty_partial: lists without dimensions; C89_all_size: all dimensions. False for other arrays of lists: C89_sizes_wrong (only the first column is measured and list_all_size() disagrees), C89_drop_empty_wrong (rows are dropped by their first cell), C89_unchop_wrong (cells after the first column are silently ignored), C89_out_of_bounds (rows but no cells: reads out of bounds)."
  },
  {
   "property": "C90",
   "status": "partial",
   "theorems": [
    "Vctrs.C90_multiple",
    "Vctrs.C90_relationship",
    "Vctrs.C90_ties",
    "Vctrs.C90_incomplete",
    "Vctrs.C90_unmatched",
    "Vctrs.C90_condition_partial",
    "Vctrs.C90_filter_partial",
    "Vctrs.C90_condition_out_of_bounds",
    "Vctrs.C90_condition_wrong",
    "Vctrs.C90_fill_direction",
    "Vctrs.C90_max_fill",
    "Vctrs.C90_loc_missing",
    "Vctrs.C90_loc_negative",
    "Vctrs.C90_loc_oob",
    "Vctrs.C90_loc_zero",
    "Vctrs.C90_location",
    "Vctrs.C90_type_action",
    "Vctrs.C90_subscript",
    "Vctrs.C90_vary",
    "Vctrs.C90_rank_incomplete",
    "Vctrs.C90_nan_distinct",
    "Vctrs.C90_flag",
    "Vctrs.C90_order_direction",
    "Vctrs.C90_order_na_value",
    "Vctrs.C90_interval_missing"
   ],
   "note": "C90_incomplete, C90_unmatched (no_match and remaining), C90_multiple, C90_relationship, C90_ties, C90_fill_direction, C90_max_fill: for all objects, accepted exactly if documented, else an error. C90_condition_partial, C90_filter_partial: strings with one element per row. False for arrays: C90_condition_out_of_bounds (strings with rows but no cells are read out of bounds), C90_condition_wrong (a matrix of four strings, one undocumented, is accepted for two columns). C90_location, C90_subscript, C90_vary, C90_rank_incomplete, C90_nan_distinct and C90_flag: options of locations, subscripts, grids, ranks and orders. C90_order_direction, C90_order_na_value and C90_interval_missing: options of orders and intervals."
  },
  {
   "property": "C91",
   "status": "partial",
   "theorems": [
    "Vctrs.C91_homogeneous",
    "Vctrs.C91_nulls",
    "Vctrs.C91_order_partial",
    "Vctrs.C91_order_wrong",
    "Vctrs.C91_class",
    "Vctrs.C91_sentinel",
    "Vctrs.C91_sentinel_empty"
   ],
   "note": "C91_homogeneous: the decision for all inputs. C91_nulls. C91_order_partial: the order does not matter if inputs of one class have one type. False otherwise: C91_order_wrong (an integer vector and a list of the same class: only the first input is tested to be a vector). C91_class (vec_c_fallback), C91_sentinel, C91_sentinel_empty (needs_vec_c_fallback)."
  },
  {
   "property": "C92",
   "status": "proved",
   "theorems": [
    "Vctrs.C92_ptype",
    "Vctrs.C92_same",
    "Vctrs.C92_idempotent",
    "Vctrs.C92_scalar",
    "Vctrs.C92_scalar_class",
    "Vctrs.C92_final",
    "Vctrs.C92_method_size",
    "Vctrs.C92_class",
    "Vctrs.C92_class_final"
   ],
   "note": "C92_ptype (same type and size zero), C92_same (depends only on the type), C92_idempotent, C92_final (vec_ptype_final), C92_scalar. C92_method_size: with a method of vec_ptype() that returns rows, the prototype of the data frame has rows. Dimension names are not modelled."
  },
  {
   "property": "C93",
   "status": "proved",
   "theorems": [
    "Vctrs.C93_slice",
    "Vctrs.C93_chop",
    "Vctrs.C93_indices",
    "Vctrs.C93_both",
    "Vctrs.C93_sizes",
    "Vctrs.C93_each",
    "Vctrs.C93_assign"
   ],
   "note": "C93_slice (vec_slice of an array: cells, row names, other names, attributes); C93_chop (vec_chop = map of vec_slice over the pieces, errors included, also for classes, whose shaped method is taken to restore as the code says); C93_indices, C93_sizes, C93_each (vec_chop of arrays at API level); C93_assign (cells and names of rows after assignment)."
  },
  {
   "property": "C94",
   "status": "partial",
   "theorems": [
    "Vctrs.C94_size",
    "Vctrs.C94_error_partial",
    "Vctrs.C94_undefined",
    "Vctrs.C94_infinite",
    "Vctrs.C94_init",
    "Vctrs.C94_size_common",
    "Vctrs.C94_no_size",
    "Vctrs.C94_recycle_common",
    "Vctrs.C94_recycle_error",
    "Vctrs.C94_check_all_size_partial",
    "Vctrs.C94_check_size_partial",
    "Vctrs.C94_check_undefined",
    "Vctrs.C94_all_size_partial",
    "Vctrs.C94_check_empty",
    "Vctrs.C94_check_witness"
   ],
   "note": "C94_size (accepted iff one whole number from 0 to 2^31 - 1 is given, and then that number); C94_error_partial (all else is an error, except numbers below -2^63); C94_undefined (numbers below -2^63 and minus infinity are converted to a signed 64 bit integer without a check: undefined behaviour, iff); C94_infinite (vec_init(x, -Inf)); C94_init, C94_size_common, C94_recycle_common, C94_recycle_error. C94_check_size_partial and C94_check_all_size_partial (vec_check_size() and list_check_all_size() pass iff the size given is that of the vector or of all elements, all else is an error, except missing doubles and numbers below -2^63); C94_all_size_partial (list_all_size()); C94_check_undefined (those are undefined behaviour, iff), C94_check_witness, C94_check_empty (any integer, also a missing one, is a size for the empty list). The statement fails: there are no checks before the conversions."
  },
  {
   "property": "C95",
   "status": "proved",
   "theorems": [
    "Vctrs.C95_vector",
    "Vctrs.C95_unique",
    "Vctrs.C95_class",
    "Vctrs.C95_untouched",
    "Vctrs.C95_df",
    "Vctrs.C95_matrix",
    "Vctrs.C95_array",
    "Vctrs.C95_options",
    "Vctrs.C95_inputs"
   ],
   "note": "C95_vector (row and names, error iff the names cannot be repaired); C95_unique (default: always a row, distinct names); C95_class (methods of a class); C95_untouched, C95_df, C95_matrix, C95_array; C95_options (accepted strategies, iff); C95_inputs (all inputs in order, first error). as.data.frame() and as_universal_names() of R are parameters."
  },
  {
   "property": "C96",
   "status": "proved",
   "theorems": [
    "Vctrs.C96_common",
    "Vctrs.C96_exists",
    "Vctrs.C96_null",
    "Vctrs.C96_to",
    "Vctrs.C96_order",
    "Vctrs.C96_again",
    "Vctrs.C96_no_type"
   ],
   "note": "C96_common, C96_exists, C96_null: without .to; C96_to: with .to; C96_order: rearranged inputs; C96_again: idempotence. Attributes and classes of inputs, and shapes, are left to C42 to C44."
  },
  {
   "property": "C97",
   "status": "proved",
   "theorems": [
    "Vctrs.C97_order",
    "Vctrs.C97_ties",
    "Vctrs.C97_joint",
    "Vctrs.C97_locate_matches",
    "Vctrs.C97_too_many"
   ],
   "note": "Order, joint ranks, ties, matches with all options, and the error for too many elements. With `==`, needles reported as incomplete are as in C50: covered if there are none or if they are reported as those without a match."
  },
  {
   "property": "C98",
   "status": "partial",
   "theorems": [
    "Vctrs.C98_groups_partial",
    "Vctrs.C98_match_partial",
    "Vctrs.C98_complex",
    "Vctrs.C98_nan",
    "Vctrs.C98_table"
   ],
   "note": "Proved without complex columns. C98_complex: complex numbers with a missing part are one value when sorted and several when hashed. C98_nan: NA and NaN are one value without nan_distinct (documented)."
  },
  {
   "property": "C99",
   "status": "partial",
   "theorems": [
    "Vctrs.C99_rank_partial",
    "Vctrs.C99_order_partial",
    "Vctrs.C99_sequential_partial",
    "Vctrs.C99_nan",
    "Vctrs.C99_d_na",
    "Vctrs.C99_leaves"
   ],
   "note": "Ranks against comparison proved without double vectors that have both NA and NaN. C99_nan: vec_compare() has NaN before NA, vec_order() and vec_rank() have NA before NaN. Sequential ranks are the inverse of the order where at most the first vector to sort by is complex, as in C34."
  }
 ]
}
