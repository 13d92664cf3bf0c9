# Design of the vctrs model

Target: r-lib/vctrs, pinned source in `/repo` (never built here, read as text).
The model lives in `lean/Verif/`, one file of *definitions* per C file or group of C
files (`Verif/Model/*`), helper lemmas next to them (`Verif/Lemmas/*`) and the
*property theorems*, which are the only thing MANIFEST.json refers to, in
`Verif/Props/*`.  Every definition carries a comment citing the C file and lines it
models; specifications (`Verif/Spec.lean` and `Spec`-sections of the property files) are written without
the model's helpers.

## Modelling conventions

* A C function becomes a total Lean function in `C α := Except Err α`.  `Err` has
  separate constructors for *undefined behaviour* (`ub`: out-of-bounds access,
  read of uninitialised memory, signed overflow, division by zero, ...), for an R level error
  the user sees (`abort`), for `r_stop_internal`/`Dictionary is full` (`internal`)
  and for fuel exhaustion (`diverge`).  A theorem that says "the result is `ok v` and
  v satisfies ..." therefore also says no UB, no internal error and termination.
* A buffer is a `List`; reads and writes are bounds checked (`rd`, `wr`), giving `ub`
  outside.  Buffers obtained by `r_alloc_*` are uninitialised (`List (Option α)`), and
  reading `none` is `ub`.
* `for` loops are `forN n f s`, i.e. `f` applied with `i = 0 .. n-1`; loops with a
  data-dependent bound use an explicit fuel argument, whose exhaustion is
  `Err.diverge` and is proved not to happen.
* C `int` is `Int` (or `Nat` for lengths); where wrap-around matters (`uint32_t`,
  `uint64_t`, bit tricks) `BitVec`/explicit `% 2^32` is used; signed overflow is checked (`ub`) where
  the C code does arithmetic on user data.
* An R double is its 64-bit pattern; `<`, `==` are defined through the exact numeric
  value (an integer scaled by 2^1075), so NaN payload, signed zero, denormals and infinities are all covered.
* An R string (CHARSXP) is `none` (NA_STRING) or its bytes: CHARSXPs are interned
  and vctrs normalises encodings first, so pointer equality is content equality.
* Element equality/hash of the hash table are *parameters* where C uses function
  pointers; the hypotheses on them (equivalence relation, equal ⇒ same hash) are
  themselves theorems (C25, C26) for the concrete element types.
* Garbage-collector protection (KEEP/FREE), error message texts, S3 dispatch to user
  code and encoding translation are not modelled.

## Properties: what is modelled and how it is proved

| id | modelled code | proof |
|----|---------------|-------|
| C01 | Model/Size: `reduce()` with splice boxes, size2_common, vec_size_common_opts, `.absent` | characterisation of the fold by a declarative predicate, permutation invariance derived |
| C02 | Model/Size: vec_check_recycle, ffi_recycle, vec_recycle_common; Model/RecycleArg: any object for the size | case analysis, induction over inputs |
| C03 | Model/Dict: dict_hash_with with uint32 wrap-around, dict_key_size, dict_load | triangular numbers are a complete residue system mod 2^m; pigeonhole |
| C04-C06, C08 | Model/Dictionary: dictionary.c loops over the hash table model | invariant: the table's keys are exactly the first occurrences so far; every stored key is reachable by its probe sequence |
| C08 sorted | Model/CountSort: `vec_count()` of R/dictionary.R, with vec_order() (base::order()) as an argument | rows are a permutation of the unsorted ones; the default order from C34 with keys count descending and location ascending |
| C07 | vec_match / vec_in, na_equal both ways | same invariant |
| C09 | Model/SetOps: set.c, four functions | same invariant, plus per-loop invariants for marker arrays |
| C09 laws | Props/C09Laws: the set operations and vec_unique() in terms of one another | from the characterisations of the results as lists |
| C10-C12 | Model/Group: group.c | same invariant |
| C04, C07, C08, C12 laws | Props/C07Laws: no new model | matching, unique values, duplicates, counts and groups of one vector agree with each other; from the closed forms of each function (firsts, `nub`, `classOf`) |
| C13 | Model/Runs: runs.c incl. data frame accumulation | loop invariants against a declarative run spec |
| C14, C15 | Model/Rep: rep.c | index lists computed in closed form; exact error conditions |
| C14 converse | Props/C14Inverse: no new model | runs of repeated elements end where repetitions end; positive sizes are determined by their partial sums |
| C10, C20 laws | Props/C10Laws, Props/C20Laws: no new model | ids are idempotent because the distinct ids are 1 to n in order (C10); a subscript and its negation split a vector: C19, C20 and C46 composed, permutation by membership |
| C15 laws | Props/C15Laws: no new model | closed forms of repetition, concatenation (C56), interleaving (C48) and unique values (C04) compared; with any object for `times` (Model/RepArg, C43 for the cast) |
| C17 laws | Props/C17Laws: no new model | every element has a last present element before it or none, likewise first after it |
| C37 laws | Props/C37Laws: no new model | the ranks are counts (C37), compared by inclusion of what is counted; the rows counted by the sequential rank are those found earlier in the stable order (C34) |
| C43, C49 laws | Props/C43Laws, Props/C49Laws: no new model | casts keep cells, so two steps keep them; slicing an array twice compared at every multi-index |
| C44 laws | Props/C44Laws: no new model | unions of lists of names are associative; no level of either factor is outside their union |
| C45 laws | Props/C45Laws: no new model | the common type of data frames is determined column by column by that of columns that may be absent, whose associativity is shown case by case from that of columns |
| C45 tibbles | Model/Tibble: type-tibble.c with the dispatch of ptype2.c, cast.c and Model/Typeof2S3; methods other than the native ones are a parameter | by cases on the classes from C45 and its laws; the parameter is shown not to matter |
| C46 laws | Props/C46Laws, Props/C46Seq (slices by sequences): no new model | every position has a last occurrence or none; the results are compared position by position |
| C16 | Model/Expand: expand.c + rep.c | mixed radix digits; arithmetic |
| C17 | Model/Fill: fill.c four loops; Model/FillArg: the options as R objects | loop invariants against "last non-missing before i" |
| C18-C22 | Model/Subscript: subscript-loc.c; Model/LocSize: size and options of C19 as R objects, negative sizes | loop invariants with explicit UB for `abs(INT_MIN)`; the scan with a negative size is that for size 0 |
| C23, C24 | Model/Names: as_unique_names_impl | uniqueness for all inputs; idempotence is false (witness), partial theorem |
| C25, C26, C28, C58 | Model/Scalar, Object, Equal, Hash, Compare on bit patterns and object trees | case analysis; induction on trees; list equality asymmetric (witness), partial |
| C27 | hash fill na_propagate | false with raw columns (witness), partial without raw columns after a missing one |
| C29 | Model/Missing: missing.c, complete.c | induction over columns |
| C30, C32, C33 | Model/Order, OrderChr, OrderGroups: int/dbl/chr algorithms with their buffers and static state (sortedness, insertion, counting, radix) | each algorithm refines "the stable order + tie group sizes", which is proved unique |
| C31 | dbl bit mapping | arithmetic on sign/magnitude for all 2^64 patterns |
| C34 | Model/OrderDf: df_order_internal | invariant over columns; false with complex columns (witnesses) |
| C30, C32-C34 sorted | Props/C30Sorted: no new model | the order is asymmetric, so one permutation only is a stable order; 1 to n is one if nothing comes before what is earlier |
| C35 | Model/OrderChr: TRUELENGTH save/reset | invariant over the save list |
| C36, C37 | vec_locate_sorted_groups, Model/Rank | loop invariants over group sizes; ranks stated as counts of rows |
| C38-C40 | Model/Interval over every orderable type | invariants over the sorted sweep; laws (merging is determined by the points covered and idempotent, complementing twice is merging, containers have the same groups and are their own containers) from uniqueness of separated intervals in a linear order |
| C38, C39 laws | Props/C38Laws: merging twice, complement of the complement | intervals with gaps between them are determined by the points they cover (linear order of row keys); counting of gaps bounds the sizes |
| C41, C42, C54 | Model/Ptype, Shape | finite table decided, lifted to folds; induction over dimensions |
| C43 | Model/Cast: cast-bare.c, cast.c switch | per element analysis on exact numeric values |
| C44 | Model/Factor | label preservation, dictionary invariant for levels |
| C45 | Model/DfType with column operations as parameters | induction over columns |
| C46, C47, C55, C56 | Model/Slice, Chop with an explicit heap for sharing | read-over-write lemmas |
| C48 | Model/Expand: slice-interleave.c | index arithmetic |
| C49 | Model/Array: strides.h, slice-array.c | mixed radix index arithmetic; int overflow witnesses |
| C50 | Model/Match (recursive binary search, nested containers), MatchExpand (pairs, errors, warnings) on joint ranks | search invariants over sorted ranks and nested groups; invariant of the rounds over remaining needles; then lifted to values with C51; columns may be packed data frames (with conditions other than `==` if incomplete rows begin with a missing element); exchanging needles and haystack follows from the symmetry of the spec (C50Laws) |
| C51 | Model/MatchJoint: match-joint.c | from C34/C37 applied to needles followed by haystack |
| C52 | Model/Int64: type-integer64.c | BitVec/Int arithmetic |
| C53 | Model/Altrep: altrep-rle.c | prefix sums |
| C57 | Model/Proxy: df_proxy, df_flatten, vec_proxy_unwrap | induction over columns |
| C59-C61 | Model/Table, DfList, Cbind: df_slice, data_frame(), df_list(), vec_cbind() on nested values | mutual induction over nested columns; invariants of the counting and the filling pass; the specifications determine the result |
| C62, C63 | Model/Rbind: vec_rbind and vec_c with name specifications | invariant "the first rows of every output buffer are the inputs so far"; lazily allocated names; internal error witness; Model/NamesTo: the place of the `.names_to` column (`r_chr_find()` compares addresses, so an equal name in another encoding would not be found) |
| C64, C65 | Model/Scatter: vec_assign and list_unchop on nested data frames with names | last-write specification `Writes`, shown to be the result of writing parts one after the other; the loop invariant is the specification of the inputs so far; determined if every element is located |
| C66 | Model/OuterNames: outer_names, r_chr_paste_prefix with its buffer as a list of possibly uninitialised bytes | loop invariant on the bytes before the cursor; lengths in `int` are checked, so the overflow is an outcome |
| C67 | Model/ChopTable: vec_chop on nested data frames with names | `chop_df` fills shells column by column: invariant `ShellsAt`; the round trip shows that `x` itself meets the specification of list_unchop, which is determined |
| C68 | Model/DateTime, Model/DateCast: common types of dates and date-times, validation, rezoning, casts and constructors; R's calendar (as.Date, as.POSIXct, as.POSIXlt) is a parameter | fold over the inputs: the zone so far is the first one that is not local; lookup lemmas for attribute lists; loop invariant for the lossy test |
| C69 | Model/SubscriptNames: subscript conversion from NULL, symbols, bare vectors, doubles and classed objects (whose casts are parameters) under the three type options | case analysis over objects and options; the double loop is `castLoop` with an exact description of the doubles that are ints |
| C70 | Model/SubscriptNames: the functions of src/subscript-loc.c with the names vector carried along | a relation between two programs (`Sim`: both return related results or both fail alike); loop invariant relating the two filter loops |
| C71 | Model/Fields: find_offset with its integer, double and string branches, records, reading and writing; strings are addresses with a translation | inductive spec of the position an index denotes, with uniqueness; loop invariant for the search; exact integer arithmetic for doubles |
| C72 | Model/Translate: the functions on a heap of objects with addresses and reference marks; copies, writes to elements and attributes | SpecHeap: depth-indexed look of an object across heaps, frame condition for shared objects; induction on the depth with loop invariants over elements and attributes; marking and copying commute |
| C73 | Model/Split on top of the models of vec_group_loc, vec_chop_unsafe and vec_slice | C12, C67 and C18 composed; loop invariants for the mask; slices by a mask are filters |
| C74 | Model/NameRepair (as_universal_names() and functions of the user are parameters), Spec in SpecRepair | case analysis, scan lemma, and the shape of repaired names from C23/C24 |
| C75 | Model/LazyChr: a state machine with the content and the number of calls | induction on the sequence of calls against a trace relation over ordinary vectors |
| C76 | Model/ArgTag: the fill methods on a buffer of possibly uninitialised bytes, `snprintf` truncating to the remaining bytes, the loop with growth by half | invariant of each fill method (text and NUL written inside, prefix kept, or -1), induction on the chain and on the rounds |
| C77 | Model/Counters: a heap of `struct counters` with the inner pointers and their swaps; counters not protected by the shelter are freed | invariant over the two levels of loops: pointer state, last shift, two protected boxes; texts compared through the relation of C76 |
| C78 | Model/Restore: a heap of pairlist nodes and objects, with `r_clone`, `r_attrib_poke` and the unlinking loop of `vec_restore_default` node by node; Model/SetAttributes: `vctrs_set_attributes` on the same heap | chains of nodes with frame lemmas; the clone consists of fresh nodes, so writes to it leave every older node as it was |
| C79 | Model/Kinds: objects with type, attributes and OBJECT bit; `class_type`, `vec_base_typeof`, `vec_proxy_info`, sizes; methods for `vec_proxy()` are an arbitrary partial function | case analysis on class vectors by length, determinism of the spec relation, induction over lists |
| C80 | Model/Kinds: `ffi_new_data_frame` on attribute lists, with the loop over the dots | lookups in attribute lists; the size through `C79_size` |
| C81 | Model/Typeof2S3: the two switches of `vec_typeof2_s3_impl` and the names of the codes, transcribed entry by entry, and the switches of native `vec_ptype2` and `vec_cast` dispatch | `decide +kernel` over all types and classes, against a specification with eighteen sides and twelve pairs |
| C82 | Model/Method: the static buffer byte by byte with `memcpy` and the terminating zero, environments as maps to values, the loop over classes, both forms of double dispatch | the buffer as a concatenation of old and new parts; loop invariants; injectivity of concatenation around the first dot |
| C83 | Model/Fallback: `df_c_fallback`, `list_pluck`, the sentinel in common types and casts, `vec_c`, `vec_rbind` and `list_unchop` on data frames; the method `c()` is arbitrary | induction on the path to a column; an invariant of the fold of common types (names, classes); the casts of C45 |
| C84 | Model/ProxyKind: methods of classes as arbitrary functions, the R methods for bare raws, lists and arrays, the choice of methods, columns, flattening and unwrapping | induction on the depth of calls; invariants for sizes; independence of the bound on the depth |
| C84 recursion | Model/ProxyRecurse: `vec_proxy_2`, `df_proxy_recurse`, `vec_restore_4`, `vec_df_restore`, `vec_bare_df_restore` with recursion, on trees; methods are arbitrary | induction on the depth: an object comes back from its recursive proxy if each class's methods give objects back and proxies of data frames keep the columns; false otherwise (witnesses) |
| C85 | Model/Grow: struct growable with int capacity, dynamic arrays with capacity, resizing and memory not written, vctrs_unique_loc() with its growable vector | refinement of lists: invariant that the written prefix is the list; the capacity is the initial one doubled, which gives the exact size at which it overflows |
| C86 | `list_unchop_fallback`, `vec_recycle_fallback`, `vec_c_fallback_invoke`, `base_c_invoke`, `c_locs` (including R's descending `seq()`), `[` with zero, missing and out-of-range locations; the class's `c()` is a parameter | closed form of the locations computed by `c_locs()` and of their merge; induction over the inputs for values and for lengths; the inversion of the indices is reduced to vec_assign (C46) and its last-occurrence specification |
| C87 | Model/Collate.lean: chr_apply, the two loops of df_apply, proxy_apply_chr_proxy_collate and its callers; the function is any map of character vectors that may fail, give another type or a result with dimensions. | Spec mapChr replaces the strings in the value itself. The two loops of df_apply are shown to be one map over the leaves (prefix invariant), which commutes with the flattening of the proxy and leaves the expansion of the settings alone; then C34 applies to the replaced vector. |
| C88 | Model/SetNames.lean: objects with names, dim, dimnames, row names (three kinds) and other attributes, names with dimensions, vec_names_impl, check_names, vec_set_rownames, vec_set_df_rownames, vec_set_names_impl with ownership, unique repair over rows; Rf_setAttrib() of R is described (length checks, empty dimnames). | Spec SameButNames and NamesAfter say what is kept and what is found. The repair of names with one string per row is reduced to C23 by showing that the dictionary gives the same marks for one-element rows; the names of dimensions by an induction over the dimensions. |
| C89 | Model/ListDim.lean: lists with a dim attribute; list_sizes, list_all_size, list_drop_empty and list_unchop with their mixed use of vec_size() and r_length(). | Spec CellSizes relates cells and sizes. With one cell per row the functions are shown equal to the plain ones (C73, C47) or followed by induction over the cells; the negations are concrete arrays of lists. |
| C90 | Model/Options.lean, OptionsLoc.lean (options of locations and subscripts, flags) and OptionsOrder.lean (orders and intervals): options as objects (NULL, strings with dimensions, numbers, others), r_is_string, the chains of strcmp(), the casts to integer and the loops of parse_condition and parse_filter. | Spec: tables of documented strings, IsInteger by the value of the number; Parsed says that the result is the meaning or the error. Induction over the table, C43 for the casts, induction over the columns. |
| C91 | Model/FallbackChoice.lean: the tests and loops of needs_vec_c_homogeneous_fallback, list_first_non_null, list_is_homogeneously_classed, vec_implements_ptype2 and the lookups of c(), over the objects of C79 and any sets of methods. | Spec: UsesBaseC over the inputs that are not NULL, with IsVec and HasClass of C79. Loop invariants; permutations of the inputs. |
| C92 | Model/PtypeObj.lean: vec_ptype, s3_ptype, df_ptype, vec_ptype_finalise, bare_df_map and the restoration of attributes, recursive over the nested objects of C79, with methods of other classes as parameters. | Spec: TypeLike, an inductive relation of two objects of the same type, independent of the order of special attributes. Mutual induction over its derivations gives one prototype for both sides; idempotence follows since an object and its prototype are related. `C92_class`, `C92_class_final`: for data frames of other classes the method for restoring gets that data frame, and its value or error is the result. |
| C93 | `Model/ArrayNames.lean`: `vec_slice_unsafe`, `vec_chop` with its four loops, `vec_proxy_assign_opts` and `vec_proxy_assign_names` on the objects of C88, with R's rules for `dimnames` | The specs `SlicedArray`, `AssignedArray`, `AssignedNames` speak of cells by index and of names by position. Slices combine C49 with a lemma on `dimnames<-`; chopping is shown equal to a map over the subscripts by induction on the loop; assignment combines C46 for cells and for names. The subscripts are as vctrs makes them (`SubscriptOk`), for assignment not a compact repetition, which the code does not recognise (C46) |
| C94 | `Model/CheckArg.lean`: `r_arg_as_ssize`, `ffi_vec_check_size`, `ffi_list_check_all_size`; `Model/SizeArg.lean`: `vec_as_ssize`, `vec_as_short_length`, `ffi_size_common`, `ffi_recycle_common`, `ffi_init`; doubles are their 64 bits, the conversion to `r_ssize` is undefined outside 64 bits | Every double is either NaN, has a fraction or is a whole number; the three cases of the result are shown to be exhaustive and exclusive. Numbers far below zero are shown to be whole, so that the check for fractions does not catch them |
| C95 | `Model/AsDfRow.lean`: `as_df_row`, `as_df_row_impl`, `df_repair_names`, `colnames2`, `vec_names2`, `validate_bind_name_repair` and the first loop of `vec_rbind`; `vec_set_names`, `vec_chop` and name repair are the models of C88, C93 and C74; as.data.frame() and as_universal_names() are parameters | The names to repair and the repaired names are described by relations without the model; the pieces come from the theorem on `vec_chop()` of C93, the loop that overwrites its list is shown to be a map |
| C96 | vec_cast_common_opts() over the models of vec_ptype_common() (C42) and the casts (C43) | the fold of the common type over inputs without shape is the largest rank (induction), the loop writes one cast after the other or stops at the first that fails; the spec is on values (cells) and the list of inputs only |
| C97 | Model/ListMatch: vec_proxy_order.list, the joint proxies of two lists (vec_c, proxy, slices), ranks, matching and ordering | the proxy of an element is the position of the first equal one (C06) or NA; it compares as the elements do, so the theorems on integer vectors (C30, C51, C50) carry over; the spec (Verif/SpecList.lean) is on elements only |
| C98 | no new definitions: relates Model/Order, Model/Match and Model/Dictionary on the same table | ties of the order of every type are the equal elements of that type (tie_same); lifted to rows; groups and matches then follow from C36, C50 and C04-C07; false for complex (witness) |
| C99 | no new definitions: relates Model/Compare with Model/Rank and Model/Order on slices (Model/ValSlice) | the orders of C28 and C34 agree on every type (smaller_lt), so on rows; ranks of C37 are counts, which are monotone; the sequential rank counts the rows before in the order; false for NA and NaN (witness) |

The note of every property in MANIFEST.json says what the theorems leave out.

## Disagreements between code and property, or with documented behaviour

Each is proved with a concrete witness where a theorem is named.

1. equal.c:389-414 `vec_equal_attrib` reads `TAG(x_attrs)` for both objects and does not
   check that y has no attributes left over: list element equality is not symmetric
   (`C25_not_symmetric`).  Such "equal" elements also hash differently (`C26_list_attributes`).
2. hash.c:357-359 `raw_hash_fill_na_propagate` uses the na_equal filler, so a raw column
   overwrites the missing marker set by an earlier column (`C27_raw_column`).
3. fill.c: without leading fill, leading missings get location 1 (or n): the result is missing
   there, but NA may become NaN (`C17_leading_missing_changes`).
4. names.c: `"......1"` is repaired to `"..."`, which is not a valid unique name; a second
   repair changes it (`C24_not_idempotent`).  Also: `isdigit()` on a negative char, `size + 28`
   overflows int for names near INT_MAX bytes (names.c:320).
5. compare.h `chr_compare_scalar` divides by `abs(strcmp)`: division by zero if two distinct CHARSXPs
   have the same bytes (excluded by interning after encoding normalisation).
6. hash.c `sexp_hash` is an error for raw and complex list elements.
7. `vec_equal(na_equal = FALSE)` on data frames is decided by the first missing or different
   column, so a later missing value is ignored after a difference (C58 states what it is).
8. subscript-loc.c:341-378 `int_filter_oob` computes `abs(NA_integer_)`, i.e.
   `abs(INT_MIN)`, undefined behaviour, for an NA subscript with oob = "remove" (C19).
9. order.c:3904-3918 `DF_ORDER_EXTRACT_CHUNK_CPL` decrements the column index once
   per tied group: out-of-bounds column access or an endless loop (`C34_out_of_bounds`,
   `C34_never_ends`, `C37_out_of_bounds`, `C51_out_of_bounds`).
10. match.c:920-940 prunes needles when the haystack range is exhausted, so incomplete
    needles there are never flagged and `incomplete = "error"/"drop"/value` is ignored (`C50_incomplete_pruned`).
11. runs.c:66-72 `vec_locate_run_bounds` keeps writing after the last bound in visiting order:
    the index is then `n` (start) or `-1` (end), outside of the result
    (`C13_locate_overrun`, `C13_locate_not_safe`); the values inside are right.
12. expand.c: an intermediate product above 2^52 is an internal error although a later empty
    input makes the result empty (hypothesis of C16).
13. size.c:245: `vec_recycle(x, integer())` reads out of bounds; a negative size is an internal
    error (utils.c:896) (C02).
14. strides.h:91-94 and 182-185, and the array fill of vec_init: int products overflow
    (`C49_strides_overflow`, `C49_missing_overflow`).
15. subscript-loc.c: an extension location that is repeated is refused (`C22_repeated`).
16. slice-assign.c: the ASSIGN macro knows compact sequences but not compact repetitions.
17. `list_unchop(vec_chop(x, list()), list())` is NULL, not an empty x (`C47_round_trip_empty`).
18. names.c strips a `...<digits>` suffix even from names that are already unique (C23 says so).
19. order.c: an allocation failure inside int_order_counting's group push leaves the static counts dirty (not modelled).
20. order-truelength.c: a string with a negative prior TRUELENGTH is taken as already seen by
    chr_mark_uniques and chr_appearance then writes out of bounds (`C35_negative`).
21. Logical and complex have no common type, although both have one with integer, so vec_ptype_common
    depends on the order (`C42_order_dependent`, `C41_grouping`).
22. altrep-rle.c Extract_subset: past the end it repeats the last string, or reads out of bounds
    when there is no run (`C53_extract_out_of_bounds`).
23. vec_cast factor to factor: the C cast refuses an absent level even if unused, and the R method
    reached next accepts it (`C44_cast_native`, `C44_cast`).
24. type-data-frame.c:763: with a duplicated name in `to`, an extra column of x is silently
    dropped (`C45_duplicate_names`).
25. match.c:700-782: a column's filter is applied before the conditions of later columns, so
    a match can be lost (`C50_filter_before_condition`).
26. match.c:868 pushes an `r_ssize*` into an int array by copying 4 bytes (wrong on big-endian; not modelled).
27. match.c: for packed data frame columns with a non-equi condition, partially missing rows are not the
    smallest, which int_locate_upper_incomplete assumes: complete matches are lost and incomplete rows are
    reported (`C50_packed_missing`).
28. cast.c: chr_as_logical is not reached by the native cast switch.
29. bind.c:222 tests `inner != chrs_empty` where c.c:128 and c-unchop.c:147 test the merged names: with a named
    input, an unnamed one without row names and of other than one row is an internal error
    (`vec_rbind(foo = data.frame(x = 1L), data.frame(x = 1:2), .names_to = NULL)`; `C62_blank`).
30. An explicit `.ptype` with (empty) row names makes vec_rbind() return row names `...1`, `...2` (outside C62: the
    common type has none).
31. c-unchop.c:145-150: the comment says empty names need not be assigned since the names are empty already, which
    is not so for overlapping indices: `list_unchop(list(a = 1L, 2L), indices = list(1L, 1L))` gives 2 the name `a`
    (`C65_stale_name`).
32. names.c:646-649: the lengths of the prefix, the longest name and the separator are added in `int`, which overflows
    for strings that together reach 2^31 bytes (`C66_paste_overflow`).
33. slice-chop.c:317, 348 with slice.c:270-282: pieces of a data frame repair their row names, so a row name that looks
    repaired, such as `a...7`, does not survive vec_chop() and list_unchop() (`C67_row_names`).
34. type-date-time.c:448-454: with two different time zones that are not local the first one is taken, so vec_ptype2() of
    date-times depends on the order of the inputs (`C68_order`); and a single POSIXlt input keeps its class where two
    give POSIXct (`C68_one`).
35. fields.c:42-52: `R_IsNA()` lets other NaNs through, every comparison with NaN is false, and `(int) val` is then undefined:
    `field(x, NaN)` (`C71_nan`).
36. names.c:843-858 `vctrs_validate_name_repair_arg(c("unique_quiet", ...))` returns `"unique"`: of a vector of several strings the strategy is kept but not its quietness (`C74_quiet_lost`); and names.c:278-303 the repair of `......1` gives `...`, which `repair = "check_unique"` rejects (`C74_unique_rejected`).
37. `counters_shift` (src/arg-counter.c:87-99) swaps the handles and the pointers behind them, which cancel out, then updates `curr` but never `names_curr`. The result so far is therefore always named by the first name of its list: `vec_size_common(a = 1, b = 1:2, c = 1:3)` says that `a` has size 2, and the snapshot tests/testthat/_snaps/type.md:125-128 has `foo` <double> for `bar = 1` (`C77_wrong_name`). After a splice box the outer counter takes over the inner one and is then incremented once more (:146, :194), so positions after each box are one too high (`C77_wrong_position`). Only two boxes are protected (:59-70): a result from the first of three boxes refers to freed counters when the third one fails (`C77_stale`). The last two need boxes inside of the list, which `rlang_env_dots_list()` normally splices before.
38. `list_sizes()` stores sizes in `int` (src/size.c:107): a vector of 2^31 elements has size -2147483648 = `NA` there, although `vec_size()` returns a double (`C79_long`). In the same way `new_compact_rownames()` stores `-n` in an `int` (src/type-data-frame.c:470): a data frame made of such a column has corrupt row names, and `abs(NA_INTEGER)` in `compact_rownames_length()` is undefined (`C79_missing_rows`, `C80_long`).
39. `left` of native dispatch tells which input comes first in the table, but `ptype2_common` (src/ptype-common.c:106-110) takes `left == 0` to mean that the common type is the one of the right input. For a character vector and a factor, and for `POSIXct` and `POSIXlt`, the common type is the one of the left input although `left` is 0 (`C77_left_wrong`): the error of `vec_c("a", factor("b"), 1L)` attributes `<character>` to the second argument, which is a factor.
40. `s3_paste_method_sym` (src/utils.c:443-460) joins names with dots, so the pair of classes `a.b` and `c` and the pair `a` and `b.c` share one double-dispatch method (`C82_ambiguous`). The sum of lengths has type `int` and overflows for class names of about two gigabytes (`C82_overflow`). `CLOENV()` is applied to any function found as the single-dispatch method, also to a primitive (src/cast.c:181, src/ptype2-dispatch.c:103).
41. `vec_c()` and `list_unchop()` give `df_c_fallback()` the inputs before the cast (src/c.c:151, src/c-unchop.c:167), and `list_pluck()` takes columns by position. With the columns in another order `c()` gets other columns (`C83_order_wrong`), with a column absent it reads out of bounds (`C83_missing_ub`); `vec_rbind()` gives it the cast inputs (src/bind.c:243). `list_unchop()` also ignores the locations for foreign columns, so rows are mixed up (`C83_unchop_wrong`).
42. `vec_ptype2()` of a foreign vector and `NULL` is a sentinel if `NULL` is on the right and not if it is on the left (src/ptype2.c:39-46 passes `x_type` in both cases; `C83_null_asymmetric`).
43. `vec_proxy_compare.raw` is `as.integer()` (R/type-bare.R:381-386), which drops dimensions, and is found before the method for arrays (src/proxy.c:142-154). The proxy of a raw matrix for comparison and order has one row per element instead of per row (`C84_raw_size_wrong`), and in a data frame only the first column of the matrix counts (`C84_raw_rows_wrong`).
44. The documentation says that `vec_proxy_compare()` calls `vec_proxy_equal()` by default. For arrays with a class it calls `as.data.frame()` instead, although a method for equality exists (src/proxy.c:150-154; `C84_array_wrong`).
45. `growable_push_int()` doubles an `int` capacity that starts at 256 (src/vctrs.h:223-229, src/dictionary.c:224). With 2^30 elements pushed the next push computes 2^30 * 2, a signed overflow. `dict_key_size()` deliberately supports inputs up to 2^31 - 1 (src/dictionary.c:186-197), so `vec_unique_loc()` of an integer vector with 2^30 + 1 distinct elements reaches it (C85_unique_wrong). A dynamic array of capacity 0 never grows, since the capacity is doubled (C85_dyn_zero); the callers in vctrs do not push to such an array.
46. `list_unchop_fallback()` (src/c-unchop.c:246-298): a NULL element with a non-empty index counts in the index offsets but brings nothing to `c()`, so all later elements are shifted: `list_unchop(list(NULL, foo(c(1, 2))), indices = list(3L, 1:2))` is foo(2, NA, 1) instead of foo(1, 2, NA) (C86_unchop_wrong).
47. `c_locs()` (R/c.R:120-128), used by `base_c_invoke()` when an input is unspecified, calls `seq(n + 1, n + input)`, which counts down for an empty input: `vec_c(foo(), NA, foo(1))` is foo(1, NA, 1) instead of foo(NA, 1) (C86_c_wrong: the size is wrong for every such input).
48. `vec_as_names()` and `vec_set_names()` accept a character matrix as names. Duplicates are then looked for among its rows (src/names.c:252, :307 call the row-wise functions) while names are its elements: duplicated names are returned by unique repair as they are, or the marks are read past their end (src/names.c:313). `check_names()` compares the number of rows (src/names.c:731-732), so a data frame of n rows gets the 2n elements of an n by 2 matrix as row names and is corrupt (C88_unique_wrong, C88_unique_out_of_bounds, C88_df_wrong).
49. Lists with dimensions: `list_sizes()` (src/size.c:92), `list_drop_empty()` (src/empty.c:16) and `list_unchop(indices = )` (src/c-unchop.c:30) loop over `vec_size(x)`, the number of rows, but index cells, while `list_all_size()` and `vec_c()` use `r_length()`. For a list matrix only the first column is measured or written and whole rows are dropped by their first cell; with rows but no cells, such as `array(list(), c(1, 0))`, elements are read out of bounds (C89_sizes_wrong, C89_drop_empty_wrong, C89_unchop_wrong, C89_out_of_bounds).
50. `condition` and `filter` of `vec_locate_matches()` may be arrays: `parse_condition()` and `parse_filter()` compare `vec_size()`, the number of rows (src/match.c:1279, :1437), but read cells. `condition = array(character(), c(1, 0))` reads out of bounds, and a 2 by 2 matrix is accepted for two columns, its second column unseen (C90_condition_out_of_bounds, C90_condition_wrong).
51. `chr_proxy_collate` may return an array: `chr_apply()` compares `vec_size()` (src/order-collate.c:60-63), so a result with the right number of rows and no cells passes and strings are read out of bounds by `vec_order_radix()` (C87_array_out_of_bounds).
52. `needs_vec_c_homogeneous_fallback()` tests only the first input that is not `NULL` to be a vector (src/c.c:216-219), and compares only classes of the others. An integer vector and a list that share a class with a method of `c()` are combined with `c()` if the integer vector comes first and `.ptype` is given, and are an error in the other order (C91_order_wrong).
53. `vec_as_ssize()` (src/size.c:338-357) checks that a double is not above `R_SSIZE_MAX` but has no check from below, so `vec_init(1L, -Inf)` or `vec_size_common(.size = -1e300)` convert a double outside the range of `r_ssize`, which is undefined in C (`C94_undefined`). `r_double_as_ssize()` (src/rlang/c-utils.h:143-149) has both checks. On common machines the result is negative and the error for negative sizes follows. The check for missing values in the same place compares the double with `NA_integer_`; a missing double is reported as a fractional number.
54. Complex numbers with a missing part are the same value for `vec_locate_sorted_groups()`, `vec_order()` and `vec_locate_matches()`, which replace both parts by NA (order.c `cpl_normalise_missing`), but not for `vec_unique()`, `vec_match()` and `vec_duplicate_id()`, which compare both parts (C98_complex).
55. `vec_compare(NA_real_, NaN, na_equal = TRUE)` is 1, so NaN is before NA (src/compare.h:53-80), but with
    `nan_distinct = TRUE` `vec_order()` and `vec_rank()` have NA before NaN (C99_nan).
56. `vec_restore_recurse()` restores the columns of a proxy to the columns of the data frame itself, not of its proxy, if the target is a data frame (src/proxy-restore.c:184-204), although `vec_proxy_recurse()` went into the proxy. So for a class of data frames whose `vec_proxy()` method adds a column, `vec_c()`, `list_unchop()` and `vec_rbind()` end in the internal error "Shape of `x` doesn't match `to`" (`C84_recurse_extra`); if it moves columns, a column without a class is silently given the class of another one, e.g. Date (`C84_recurse_moved`). In both cases `vec_restore(vec_proxy(x), x)` is `x`. The same function, called from R (`vctrs:::vec_restore_recurse()`, not exported), pokes columns into `x` before it copies a shared `x` (:202 before :206; read, not modelled).
57. Found by reading, in code that is modelled only as `abort`: `stop_rep_each_times_negative()` and `_missing()` print an
    `r_ssize` with `%i` (src/rep.c:294-308, a mismatched variadic argument), and in `stop_rep_each_times_oob()` a comma splits
    the format, so that a pointer would be printed with `%i` (src/rep.c:313-323; never called, as no `int` is above
    `R_LEN_T_MAX`). `ffi_vec_rep_each()` names `x` by `times_arg` (src/rep.c:112, not used). Messages are outside of the model.
58. `ffi_as_location()` does not check the size `n` (src/subscript-loc.c:522-542). A negative or missing `n` reaches the loops:
    `num_as_location(c(0L, 0L, 1L), n = -3L, oob = "extend", zero = "ignore")` counts one location out of bounds, allocates one
    element, and writes the zeros, which are above `n`, past it (`C19_negative_size_overflow`, for every `n` below -1,
    `C19_overflow_witness` from R objects); with `oob = "remove"` the result has an element that was never written
    (`C19_negative_size_unwritten`). With `oob = "error"`, as in `vec_as_location()`, there is no such effect
    (`C19_negative_size_partial`). A size that is not a single number is an internal error (`C19_size_internal`).
59. `r_arg_as_ssize()` (src/rlang/rlang.c:49), which reads `size` in `vec_check_size()`, `list_check_all_size()` and `list_all_size()`, finds
    fractions by converting the double to a 64 bit integer. The conversion of a missing double, or of one below -2^63, is
    undefined in C: `vec_check_size(1:5, size = NA_real_)` (`C94_check_undefined`, `C94_check_witness`, `C94_all_size_partial`). Negative and missing
    integers are not rejected: any integer is a size for the empty list (`C94_check_empty`).

## Trusted base

* The Lean 4.33.0 kernel, Mathlib lemmas used, and the axioms `propext`,
  `Classical.choice`, `Quot.sound` (checked with `#print axioms`; nothing else is used).
* The reading of the C code: the citation comments say what each definition covers and
  what it leaves out.
* CHARSXPs are identified with byte strings; lists' order proxy is R code (the model refuses
  lists and raws there); the collation function of the ordering functions is not modelled; S3 and R
  methods reached after a native failure are `abort` unless a note says otherwise; intervals
  and matches start from values of one type (the common type cast is C41-C45).
* Not modelled: R's GC, S3/S4 dispatch to R-level methods, error messages,
  encoding translation, ALTREP dispatch inside R, connection to the C compiler.
