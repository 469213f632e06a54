{
 "claims": [
  {
   "property": "C01",
   "status": "proved",
   "theorems": [
    "Verif.FloorDiv.floordiv_mod_zero",
    "Verif.FloorDiv.floormod_correct",
    "Verif.FloorDiv.floordiv_correct",
    "Verif.FloorDiv.floordiv_floormod_eq_fdiv_fmod",
    "Verif.FloorDiv.floordiv_overflow_pair",
    "Verif.FloorDiv.floordiv_mod_law",
    "Verif.FloorDiv.floormod_u64_i64_correct",
    "Verif.FloorDiv.floormod_u64_u64_wraps"
   ],
   "note": ""
  },
  {
   "property": "C02",
   "status": "partial",
   "theorems": [
    "Verif.ConstFold.mkBin_sound",
    "Verif.ConstFold.mkBin_raise",
    "Verif.ConstFold.mkAnd_sound",
    "Verif.ConstFold.mkOr_sound",
    "Verif.ConstFold.mkNot_sound",
    "Verif.ConstFold.build_sound_partial",
    "Verif.ConstFold.mkBin_dtype",
    "Verif.ConstFold.floordiv_zero_drops_exception_refuted",
    "Verif.ConstFold.floormod_zero_drops_exception_refuted",
    "Verif.ConstFold.mul_zero_drops_call_refuted",
    "Verif.ConstFold.and_false_drops_call_refuted",
    "Verif.ConstFold.or_true_drops_call_refuted",
    "Verif.ConstFold.or_negative_literal_aborts_refuted",
    "Verif.ConstFold.bool_literal_compare_refuted",
    "Verif.ConstFold.uint32_wrap_refuted",
    "Verif.ConstFold.cast_narrow_literal_refuted"
   ],
   "note": "Value preservation for every operator and for whole trees over int32/int64/bool. Exceptions are kept by +,-,min,max and comparisons only; folding of 0*x, 0//x, 0%x, x and False, x or True drops them (refuted). Floating-point folding is not modelled."
  },
  {
   "property": "C03",
   "status": "proved",
   "theorems": [
    "Verif.IntOperator.extendedEuclidean_correct",
    "Verif.IntOperator.extendedEuclidean_bounded",
    "Verif.IntOperator.extendedEuclidean_negative",
    "Verif.IntOperator.zeroAwareGCD_correct",
    "Verif.IntOperator.leastCommonMultiple_correct"
   ],
   "note": "Unbounded integers: products inside the loop are not wrapped to 64 bits."
  },
  {
   "property": "C04",
   "status": "partial",
   "theorems": [
    "Verif.IntOperator.willOverflowAdd_iff",
    "Verif.IntOperator.willOverflowSub_iff",
    "Verif.IntOperator.willOverflowMul_iff_partial",
    "Verif.IntOperator.willOverflowMul_refuted",
    "Verif.IntOperator.willOverflowMod_iff"
   ],
   "note": "Multiplication is exact except that the range check divides INT64_MIN by -1 (undefined); witness in willOverflowMul_refuted."
  },
  {
   "property": "C05",
   "status": "partial",
   "theorems": [
    "Verif.Slice.listGetSlice_correct",
    "Verif.Slice.listGetSlice_length",
    "Verif.Slice.getSlice_step_not_positive",
    "Verif.Slice.strGetSlice_correct_partial",
    "Verif.Slice.strGetSlice_refuted",
    "Verif.Slice.getItem_correct",
    "Verif.Slice.setItem_correct",
    "Verif.Slice.bytesGetItem_partial",
    "Verif.Slice.bytesGetItem_refuted"
   ],
   "note": "Lists: full. str/bytes: full except steps near 2^63 where the size computation overflows (refuted with a witness). bytes[i] is signed (refuted for bytes of 128 and more)."
  },
  {
   "property": "C06",
   "status": "partial",
   "theorems": [
    "Verif.ListOps.list_history_correct_partial",
    "Verif.ListOps.list_history_correct",
    "Verif.ListOps.step_correct",
    "Verif.ListOps.concatMove_correct",
    "Verif.ListOps.setSlice_self_refuted",
    "Verif.ListOps.setSlice_negative_refuted",
    "Verif.ListOps.index_truncation_refuted"
   ],
   "note": "All histories over aliased lists; slice assignment only with ordered non-negative bounds from another list, index only below 2^31 elements (the excluded cases are refuted)."
  },
  {
   "property": "C07",
   "status": "proved",
   "theorems": [
    "Verif.PdqSort.pdqsort_correct",
    "Verif.PdqSort.list_sort_correct",
    "Verif.PdqSort.list_sort_key_correct",
    "Verif.PdqSort.pdqLoop_spec"
   ],
   "note": "All lists and strict weak orders; includes termination, no access outside the list and no read of a moved-from slot. Assumes the contract of std::make_heap and std::sort_heap, and comparators that do not raise. NaN and mixed-type lists are not strict weak orders."
  },
  {
   "property": "C08",
   "status": "partial",
   "theorems": [
    "Verif.PdqSort.reverse_sort_safe_refuted",
    "Verif.PdqSort.reverse_sort_short_partial",
    "Verif.PdqSort.reverse_sort_distinct_partial"
   ],
   "note": "False: every list of 24 or more equal elements is read past its end. Proved for lists of fewer than 24 elements with any ties, and for lists of any length without ties."
  },
  {
   "property": "C09",
   "status": "partial",
   "theorems": [
    "Verif.Heap.heap_replace_keeps",
    "Verif.Heap.heap_pushpop_min",
    "Verif.Heap.heap_history",
    "Verif.Heap.heap_empty_raises",
    "Verif.Heap.heapify_by_history_partial",
    "Verif.Heap.heapify_order_refuted",
    "Verif.Heap.heapify_root_max_refuted"
   ],
   "note": "False for heapify without a comparator, which builds a max-heap: refuted for every list with two different elements. Proved for every history that starts from a min-heap, in particular from heapify with a comparator. Assumes the contracts of std::make_heap and std::sort and comparisons that do not raise."
  },
  {
   "property": "C10",
   "status": "proved",
   "theorems": [
    "Verif.Utf8.decode_encode",
    "Verif.Utf8.encode_injective",
    "Verif.Utf8.encode_append"
   ],
   "note": ""
  },
  {
   "property": "C100",
   "status": "partial",
   "theorems": [
    "Verif.CallArgs.method_call_partial",
    "Verif.CallArgs.keyword_lost_refuted",
    "Verif.CallArgs.extra_argument_refuted",
    "Verif.CallArgs.override_call_partial",
    "Verif.CallArgs.override_keyword_refuted",
    "Verif.CallArgs.override_default_refuted"
   ],
   "note": "Proved for calls without a gap, and for overriding methods without keywords and with identical defaults. False: keyword arguments after a parameter left to its default are silently replaced by defaults; overriding methods with other parameter names get keyword arguments in the wrong parameters."
  },
  {
   "property": "C101",
   "status": "partial",
   "theorems": [
    "Verif.CallArgs.defaults_shared_partial",
    "Verif.CallArgs.keyword_defaults_shared",
    "Verif.CallArgs.default_object_refuted"
   ],
   "note": "Proved for constants, and for calls with keywords among each other. False: a default like [] is a new object in every call without keywords."
  },
  {
   "property": "C102",
   "status": "partial",
   "theorems": [
    "Verif.Rc.scope_ok",
    "Verif.Rc.scope_frees_all",
    "Verif.Rc.run_ok",
    "Verif.Rc.copy_value",
    "Verif.Rc.scope_leaks_refuted",
    "Verif.Rc.moveItem_refuted",
    "Verif.Rc.move_self_loses"
   ],
   "note": "Proved for all operations but moving an item of a variable into that variable, and freeing for programs that never append. False: a container that contains itself is never freed; x = std::move(x[n]) reads the container it has just freed, and x = std::move(x) loses the value."
  },
  {
   "property": "C103",
   "status": "partial",
   "theorems": [
    "Verif.Ffi.call_computes",
    "Verif.Ffi.round_trip",
    "Verif.Ffi.conv_rep",
    "Verif.Ffi.ret_den",
    "Verif.Ffi.item_den",
    "Verif.Ffi.first_computes",
    "Verif.Ffi.sound_exists",
    "Verif.Ffi.rep_unique",
    "Verif.Ffi.bool_refuted",
    "Verif.Ffi.bigInt_refuted",
    "Verif.Ffi.bigKeys_refuted",
    "Verif.Ffi.surrogate_refuted",
    "Verif.Ffi.call_ignores_kwargs_refuted"
   ],
   "note": "Proved for integers of 64 bits, text without surrogates and containers whose keys can be hashed. False: a bool becomes an int; an integer that does not fit is passed as -1 and Python then raises SystemError after the function has run; different such keys collide; text with a surrogate is read through a null pointer; keyword arguments of a packed function are dropped."
  },
  {
   "property": "C104",
   "status": "partial",
   "theorems": [
    "Verif.Ffi.call_ok",
    "Verif.Ffi.opCall_ok",
    "Verif.Ffi.conv_fails_clean",
    "Verif.Ffi.conv_then_destroy",
    "Verif.Ffi.conv_good",
    "Verif.Ffi.any_twice_refuted",
    "Verif.Ffi.badKey_leaks_refuted"
   ],
   "note": "Proved for all arguments without Any objects when keys can be hashed. False: an Any object given twice is freed twice; a key that cannot be hashed makes the items behind it leak."
  },
  {
   "property": "C105",
   "status": "partial",
   "theorems": [
    "Verif.Ffi.closure_owns_partial",
    "Verif.Ffi.closure_leaks_refuted",
    "Verif.Ffi.inv_unique"
   ],
   "note": "Proved: no use after free, and nothing is left when the Python function raises. False: every result that is not a scalar or a short string is leaked once."
  },
  {
   "property": "C106",
   "status": "partial",
   "theorems": [
    "Verif.Order.lt_agrees_partial",
    "Verif.Order.ge_agrees_partial",
    "Verif.Order.gt_agrees_partial",
    "Verif.Order.le_agrees_partial",
    "Verif.Order.typed_list_agrees",
    "Verif.Order.tuple_gt_is_ge",
    "Verif.Order.tuple_gt_self_refuted",
    "Verif.Order.nested_tuple_refuted",
    "Verif.Order.none_items_refuted",
    "Verif.Order.typed_list_refuted"
   ],
   "note": "Proved for integers of 64 bits, integral floats below 2^48, bytes, text and lists of these, and < and >= also for tuples of these. False: on tuples > is Python's >=, so that t > t and not t <= t; equal tuples inside hide the items behind them; two None in the same place raise TypeError; a list of known type is less than everything that is no list."
  },
  {
   "property": "C107",
   "status": "partial",
   "theorems": [
    "Verif.Order.exact_comparisons",
    "Verif.Order.float_le_partial",
    "Verif.Order.float_lt_partial",
    "Verif.Order.inf_refuted",
    "Verif.Order.nan_refuted",
    "Verif.Order.neighbours_refuted",
    "Verif.Order.big_int_refuted"
   ],
   "note": "Proved: integers with integers, > on all floats, <= on all floats but nan, and what < and >= compute on finite floats. False: x < inf for every finite x, inf < inf holds, nan is less than everything, neighbouring floats are not less, integers beyond 2^53 are rounded before they are compared with floats."
  },
  {
   "property": "C108",
   "status": "partial",
   "theorems": [
    "Verif.Order.min_first_partial",
    "Verif.Order.max_first_partial",
    "Verif.Order.max_tuples_refuted",
    "Verif.Order.min_inf_refuted",
    "Verif.Order.min_empty_refuted"
   ],
   "note": "Proved for the values of C106. False: max of equal tuples returns the last; a minimum that starts from infinity stays infinity; an empty iterator is read behind its end."
  },
  {
   "property": "C109",
   "status": "partial",
   "theorems": [
    "Verif.Order.sort_partial",
    "Verif.Order.sort_inf_refutedVerif.PdqSort.list_sort_correct"
   ],
   "note": "Proved for the values of C106, given the contract of std::sort_heap. False: 24 or more infinities make the sort read outside the list."
  },
  {
   "property": "C11",
   "status": "proved",
   "theorems": [
    "Verif.Utf8.convert_count",
    "Verif.Utf8.utf8Decode_ok",
    "Verif.Utf8.encode_length"
   ],
   "note": ""
  },
  {
   "property": "C110",
   "status": "partial",
   "theorems": [
    "Verif.Order.float_mod",
    "Verif.Order.mod_sign",
    "Verif.Order.float_mod_int",
    "Verif.Order.float_mod_zero",
    "Verif.Order.int_mod_float_partial",
    "Verif.Order.int_mod_float_refuted",
    "Verif.Order.float_mod_typed_int_refuted",
    "Verif.Order.int_mod_zero_refuted",
    "Verif.Order.mod_inf_refuted",
    "Verif.Order.rep_mod"
   ],
   "note": "Proved for a finite float on the left with both types unknown, and for an integer on the left when the signs agree. False: int % float and float % int of known type keep the sign of the dividend; int % 0.0 raises ValueError; a negative float modulo infinity raises."
  },
  {
   "property": "C111",
   "status": "proved",
   "theorems": [
    "Verif.Half.toFloat_exact"
   ],
   "note": "For every 16 bits, over an exact model of binary32 arithmetic with rounding to nearest and without flushing subnormals."
  },
  {
   "property": "C112",
   "status": "partial",
   "theorems": [
    "Verif.Half.fromFloat_nearest",
    "Verif.Half.nearest_unique",
    "Verif.Half.store_nearest_partial",
    "Verif.Half.store_nearest_refuted"
   ],
   "note": "Proved for every binary32 number and for Python floats that a binary32 represents. False for other Python floats, which are rounded twice: 1 + 2^-11 + 2^-25 becomes 1 although 1 + 2^-10 is nearer."
  },
  {
   "property": "C113",
   "status": "proved",
   "theorems": [
    "Verif.Half.round_trip",
    "Verif.Half.store_half",
    "Verif.Half.store_mono",
    "Verif.Half.store_faithful",
    "Verif.Half.hv_lt"
   ],
   "note": "All nans become one nan. Order is stated for non-negative floats and magnitudes; the sign is kept by store_faithful."
  },
  {
   "property": "C114",
   "status": "partial",
   "theorems": [
    "Verif.Iterate.for_agrees_partial",
    "Verif.Iterate.for_ends",
    "Verif.Iterate.for_fold",
    "Verif.Iterate.append_refuted",
    "Verif.Iterate.append_room",
    "Verif.Iterate.append_full",
    "Verif.Iterate.pop_refuted"
   ],
   "note": "Proved for all bodies that keep the length and the buffer of the list. False for bodies that append (Python never ends; the generated code ends or reads freed memory) and that pop (reads removed items)."
  },
  {
   "property": "C115",
   "status": "partial",
   "theorems": [
    "Verif.Iterate.zip_agrees_partial",
    "Verif.Iterate.zip_containers",
    "Verif.Iterate.zip_tuples",
    "Verif.Iterate.enum_agrees",
    "Verif.Iterate.zip_rest_refuted",
    "Verif.Iterate.zip_same_refuted"
   ],
   "note": "Proved: the tuples, worlds and exits for containers and distinct iterators. False: what is left in an iterator that is longer than a later argument, and zip(it, it) with an odd number of items, which reads behind the end."
  },
  {
   "property": "C116",
   "status": "partial",
   "theorems": [
    "Verif.Iterate.comp_agrees_partial",
    "Verif.Iterate.range_reread_refuted",
    "Verif.Iterate.zero_step_refuted",
    "Verif.Iterate.scope_refuted"
   ],
   "note": "Proved when names have values where they are read, ranges stop at literals or variables, and steps are literals or outer variables that are not zero. False otherwise: bounds are evaluated again in every step, the reserved size divides by steps of loops that never run, and a target is the outer variable before it is assigned."
  },
  {
   "property": "C117",
   "status": "proved",
   "theorems": [
    "Verif.Normalize.form_decomposed",
    "Verif.Normalize.normalize_no_ub",
    "Verif.Normalize.nfd_spec",
    "Verif.Normalize.fullDec_unique",
    "Verif.Normalize.order_unique",
    "Verif.Normalize.ucd_laws"
   ],
   "note": "For the database of the repository, every entry of which the kernel checks."
  },
  {
   "property": "C118",
   "status": "proved",
   "theorems": [
    "Verif.Normalize.form_composed",
    "Verif.Normalize.compL_compose",
    "Verif.Normalize.nfc_ok",
    "Verif.Normalize.form_idem",
    "Verif.Normalize.form_form",
    "Verif.Normalize.form_eq_iff",
    "Verif.Normalize.form_canon",
    "Verif.Normalize.normalize_no_ub"
   ],
   "note": "For the database of the repository; `compose` is the algorithm of the Unicode standard (D117)."
  },
  {
   "property": "C119",
   "status": "proved",
   "theorems": [
    "Verif.Normalize.shortcut_sound",
    "Verif.Normalize.isNormalized_iff",
    "Verif.Normalize.normalize_ok",
    "Verif.Normalize.ucd_qlaws"
   ],
   "note": "For the database of the repository."
  },
  {
   "property": "C12",
   "status": "partial",
   "theorems": [
    "Verif.Utf8.stray_byte_partial",
    "Verif.Utf8.ascii_preserved_partial",
    "Verif.Utf8.decode_bound_partial",
    "Verif.Utf8.truncated_tail_loses_ascii_refuted",
    "Verif.Utf8.overlong_accepted_refuted",
    "Verif.Utf8.out_of_range_accepted_refuted"
   ],
   "note": "False in general: a truncated sequence at the end swallows following ASCII bytes, overlong 3/4-byte forms and values above U+10FFFF are accepted (witnesses). Proved: stray bytes are replaced one by one, ASCII text is kept when the input does not end in a truncated sequence."
  },
  {
   "property": "C120",
   "status": "partial",
   "theorems": [
    "Verif.WordPiece.tokenize_partial",
    "Verif.WordPiece.word_ok",
    "Verif.WordPiece.greedy_bytes",
    "Verif.WordPiece.greedy_pieces",
    "Verif.WordPiece.whole_word",
    "Verif.WordPiece.empty_word_refuted",
    "Verif.WordPiece.nested_refuted"
   ],
   "note": "Without NUL and with at most 64 entries nested in one another (entries of at most 64 bytes suffice, shallow_of_length); more make the search read outside of an array. An empty word with skip_empty=False gives the token '' with the identifier -1."
  },
  {
   "property": "C121",
   "status": "partial",
   "theorems": [
    "Verif.WordPiece.tokenize_partial",
    "Verif.WordPiece.new_ok",
    "Verif.WordPiece.total_vocab",
    "Verif.WordPiece.lens_sum",
    "Verif.WordPiece.shallow_of_length",
    "Verif.WordPiece.none_unk_refuted",
    "Verif.WordPiece.empty_unk_refuted",
    "Verif.WordPiece.line_number_refuted",
    "Verif.WordPiece.max_bytes_refuted"
   ],
   "note": "Blank lines are not counted and the first of equal lines counts; unk_token=None always fails, unk_token='' has an uninitialised identifier, max_bytes_per_token is cut to 32 bits."
  },
  {
   "property": "C122",
   "status": "partial",
   "theorems": [
    "Verif.Emoji.bytes_partial",
    "Verif.Emoji.str_partial",
    "Verif.Emoji.segs_join",
    "Verif.Emoji.longest_some",
    "Verif.Emoji.longest_none",
    "Verif.Emoji.unchanged",
    "Verif.Emoji.checkPos_bytes",
    "Verif.Emoji.checkPos_str_partial",
    "Verif.Emoji.checkPos_str_refuted",
    "Verif.Emoji.clean_refuted",
    "Verif.Emoji.empty_code_refuted",
    "Verif.Emoji.bytes_code_refuted"
   ],
   "note": "For any codes, not for the compiled tables; codes that are not empty, without NUL and at most 64 nested. check_pos on str at a place other than the beginning reads behind the end; an empty code ends the process; the result of filter can contain codes; codes given as bytes can cut a character."
  },
  {
   "property": "C123",
   "status": "partial",
   "theorems": [
    "Verif.StructEq.equal_partial",
    "Verif.StructEq.returns_iff",
    "Verif.StructEq.sim_iff",
    "Verif.StructEq.yield_refuted"
   ],
   "note": "Without HLOYield nodes (their shortcut for identical attributes makes fn(x,y){yield x} equal to fn(y,x){yield x}), maps and class types; the attributes that each node class hands over are a parameter of the model."
  },
  {
   "property": "C124",
   "status": "partial",
   "theorems": [
    "Verif.StructEq.equivalence_partial",
    "Verif.StructEq.deferred_same",
    "Verif.StructEq.map_free_vars_more",
    "Verif.StructEq.closed_same",
    "Verif.StructEq.alpha_freeVars",
    "Verif.StructEq.float_refuted"
   ],
   "note": "As C123, and for values whose comparison is an equivalence: floats are compared with a tolerance, which is not transitive."
  },
  {
   "property": "C125",
   "status": "partial",
   "theorems": [
    "Verif.StructEq.fast_partial",
    "Verif.StructEq.null_array_refuted"
   ],
   "note": "As C123, and with array attributes that are not null: a null array is equal to an empty one only without path tracing."
  },
  {
   "property": "C126",
   "status": "partial",
   "theorems": [
    "Verif.StructEq.deep_iff_partial",
    "Verif.StructEq.deep_partial",
    "Verif.StructEq.deep_refuted"
   ],
   "note": "For expressions without graph nodes: a shared call and two equal calls are deep equal but not structurally equal."
  },
  {
   "property": "C127",
   "status": "partial",
   "theorems": [
    "Verif.StructEq.hash_partial",
    "Verif.StructEq.hash_ordered_partial",
    "Verif.StructEq.hashReturns_iff",
    "Verif.StructEq.freeVars_hashed",
    "Verif.StructEq.float_hash_refuted",
    "Verif.StructEq.yield_hash_refuted"
   ],
   "note": "Without HLOYield, when equal values have equal hashes (not so for floats), when the hashed attributes are chosen from the compared ones, and, for map_free_vars=False, when the hash meets no variable outside a definition that the comparison meets first inside one (true in particular if both visit in the same order)."
  },
  {
   "property": "C128",
   "status": "partial",
   "theorems": [
    "Verif.DocPrint.reads_partial",
    "Verif.DocPrint.reads_only_partial",
    "Verif.DocPrint.print_injective_partial",
    "Verif.DocPrint.chain_refuted",
    "Verif.DocPrint.chain_right_refuted",
    "Verif.DocPrint.cond_refuted",
    "Verif.DocPrint.negpow_refuted",
    "Verif.DocPrint.negattr_refuted",
    "Verif.DocPrint.intattr_refuted",
    "Verif.DocPrint.emptyset_refuted"
   ],
   "note": "Token level, for expressions without a comparison as left operand of a comparison or next to `in`, without a conditional as first part of a conditional, negative numbers as base or before a trailer, attributes of integers and empty sets: each of these is printed as something else (the refuted theorems, for all operands). Dicts, slices, comprehensions and statements are not modelled."
  },
  {
   "property": "C129",
   "status": "partial",
   "theorems": [
    "Verif.SaveLoad.load_save_partial",
    "Verif.SaveLoad.run_load_partial",
    "Verif.SaveLoad.load_twice_partial",
    "Verif.SaveLoad.load_isolated_partial",
    "Verif.SaveLoad.shadowed_refuted",
    "Verif.SaveLoad.second_model_refuted",
    "Verif.SaveLoad.basename_refuted",
    "Verif.SaveLoad.resave_refuted",
    "Verif.SaveLoad.dir_refuted"
   ],
   "note": "For sessions whose operators have distinct names, resource files with distinct copies, a folder without newer files of the same names, and a loading process without other shared operators of the same class and name: each condition is needed (the refuted theorems). Directories as resources, devices and the JSON text are not modelled."
  },
  {
   "property": "C13",
   "status": "partial",
   "theorems": [
    "Verif.Strings.find_correct",
    "Verif.Strings.rfind_correct",
    "Verif.Strings.findChar_correct",
    "Verif.Strings.rfindChar_correct",
    "Verif.Strings.contains_correct",
    "Verif.Strings.pyFind_correct_partial",
    "Verif.Strings.pyFind_refuted"
   ],
   "note": "find/rfind/in: full. str.find(start, end): full for start >= 0; negative start refuted."
  },
  {
   "property": "C130",
   "status": "partial",
   "theorems": [
    "Verif.SoCache.edit_detected_partial",
    "Verif.SoCache.scripts_own_partial",
    "Verif.SoCache.const_refuted",
    "Verif.SoCache.boundary_refuted"
   ],
   "note": "An edit of one file is seen unless the truncated hashes collide; sequences of compilations are right if equal names mean equal code. That is not so: captured constants are not part of the name (const_refuted), and texts are joined without separators (boundary_refuted)."
  },
  {
   "property": "C131",
   "status": "partial",
   "theorems": [
    "Verif.SoCache.exclusive",
    "Verif.SoCache.loads_full_partial",
    "Verif.SoCache.loads_own_partial",
    "Verif.SoCache.compiled_once",
    "Verif.SoCache.progress",
    "Verif.SoCache.killed_refuted",
    "Verif.SoCache.nocache_refuted"
   ],
   "note": "With the cache switched on and no process killed while its compiler works; both conditions are needed (the refuted theorems). Exclusion, stability and progress hold without them. Other programs that change the directory are not modelled."
  },
  {
   "property": "C132",
   "status": "partial",
   "theorems": [
    "Verif.BundleArgs.save_args_partial",
    "Verif.BundleArgs.load_args_partial",
    "Verif.BundleArgs.save_unchanged_partial",
    "Verif.BundleArgs.save_loaded_partial",
    "Verif.BundleArgs.saved_twice_refuted",
    "Verif.BundleArgs.save_loaded_refuted",
    "Verif.BundleArgs.dotted_key_refuted",
    "Verif.BundleArgs.number_key_refuted"
   ],
   "note": "Saving and loading are right for all nestings if keys of dicts are non-empty strings without dots and opening brackets; saving again needs that no list or dict holds names of files. Both conditions are needed (the refuted theorems). Tuples and bytes are not searched; the operating system's files are a parameter."
  },
  {
   "property": "C133",
   "status": "partial",
   "theorems": [
    "Verif.Nested.step_size",
    "Verif.Nested.no_infinite",
    "Verif.Nested.layered_done_partial",
    "Verif.Nested.one_pool_done",
    "Verif.Nested.two_pools_refuted",
    "Verif.Nested.no_threads_refuted"
   ],
   "note": "On one pool, and on several pools where waiting goes only from a pool to itself and later ones, every execution ends with everything done. Two pools that wait for each other can deadlock, and a pool without threads never answers (the refuted theorems). Calls are finite trees; futures handed over through shared containers are not modelled, nor is the shutdown of pools."
  },
  {
   "property": "C134",
   "status": "partial",
   "theorems": [
    "Verif.TypeJoin.lift_left",
    "Verif.TypeJoin.lift_right_partial",
    "Verif.TypeJoin.iter_covers",
    "Verif.TypeJoin.nth_covers",
    "Verif.TypeJoin.conv_lift_left",
    "Verif.TypeJoin.conv_lift_right",
    "Verif.TypeJoin.files_refuted",
    "Verif.TypeJoin.order_refuted",
    "Verif.TypeJoin.unsigned_refuted"
   ],
   "note": "The common type holds the values of the first type always and those of the second if the first has no files inside (files_refuted shows that this is needed); loop variables, unpacked variables and acceptance are proved for all types. The result can depend on the order of joins (order_refuted), and accepted types need not hold all values (unsigned_refuted). Values are a semantic model; code generation for the joined type is not modelled."
  },
  {
   "property": "C135",
   "status": "partial",
   "theorems": [
    "Verif.Warmup.step_size",
    "Verif.Warmup.no_infinite",
    "Verif.Warmup.warmup_done_partial",
    "Verif.Warmup.throw_refuted",
    "Verif.Warmup.two_warmups_refuted"
   ],
   "note": "Proved for one warmup at a time and ops that do not throw, with any other work on the pool. With an op that throws on one thread the others wait for ever, and two warmups at once can block each other (the refuted theorems). Runs of the pipeline are steps that do not wait for other tasks; that the main thread's variables outlive the tasks when its own run throws is not modelled."
  },
  {
   "property": "C136",
   "status": "partial",
   "theorems": [
    "Verif.ObjPool.exclusive",
    "Verif.ObjPool.accounted",
    "Verif.ObjPool.one_left",
    "Verif.ObjPool.give_back_partial",
    "Verif.ObjPool.borrow_alone",
    "Verif.ObjPool.lost_stays",
    "Verif.ObjPool.lost_unused",
    "Verif.ObjPool.lost_refuted",
    "Verif.ObjPool.shrinks_refuted",
    "Verif.ObjPool.sizes",
    "Verif.ObjPool.one_object_refuted"
   ],
   "note": "Exclusive use is proved for all interleavings, and that at least one handler is never lost. That a handler comes back is false in general: giving back fails while another thread is in the middle of its borrow, the failure is ignored, and the handler is never used again (lost_refuted, for every size the ops accept, with two threads), and repeated until one is left (shrinks_refuted). It is proved when no other call is going on. Positions that wrap around and weak memory orders are not modelled."
  },
  {
   "property": "C137",
   "status": "partial",
   "theorems": [
    "Verif.VisionBatch.tasks_partition",
    "Verif.VisionBatch.batch_eq_sequential",
    "Verif.VisionBatch.decode_cpu_flags",
    "Verif.VisionBatch.decode_gpu_flags",
    "Verif.VisionBatch.encode_flags_refuted",
    "Verif.VisionBatch.encode_check",
    "Verif.VisionBatch.jpeg_partial",
    "Verif.VisionBatch.jpeg_refuted"
   ],
   "note": "Proved for decoding, with and without flags, and for all ops of the task manager. False for encoding without exceptions on the CPU, whose tasks catch nothing (encode_flags_refuted), and for empty images on the GPU, where the test for JPEG reads beside the data (jpeg_refuted gives exactly the images concerned). Decoding and encoding of one image are functions; CUDA errors that show later are not modelled."
  },
  {
   "property": "C138",
   "status": "partial",
   "theorems": [
    "Verif.StrFormat.format_accepts",
    "Verif.StrFormat.format_enough",
    "Verif.StrFormat.format_text",
    "Verif.StrFormat.none_refuted",
    "Verif.StrFormat.bytes_refuted"
   ],
   "note": "Proved: the accepted strings, the index error, and the result for text and integers. False for None, booleans and bytes, whose text differs from Python's; bytes that are no UTF-8 swallow the text that follows. Floats, containers and user objects as arguments are not modelled."
  },
  {
   "property": "C139",
   "status": "partial",
   "theorems": [
    "Verif.FuncReg.read_names",
    "Verif.FuncReg.library_get",
    "Verif.FuncReg.methods_partial",
    "Verif.FuncReg.inherited",
    "Verif.FuncReg.remove_add",
    "Verif.FuncReg.names_partial",
    "Verif.FuncReg.good_plain",
    "Verif.FuncReg.lookup_refuted",
    "Verif.FuncReg.single_refuted",
    "Verif.FuncReg.wrapper_refuted",
    "Verif.FuncReg.names_refuted"
   ],
   "note": "Proved: names are read back, the module and the tables of classes give the right functions, inheritance takes the nearest definition, names of methods are unique for classes whose names do not form the separator. False for the function kept by a function object, which is the one registered after it (lookup_refuted, single_refuted), for a method called __init___wrapper (wrapper_refuted), and for class names that form the separator (names_refuted). Symbols outside the registry are not modelled."
  },
  {
   "property": "C14",
   "status": "partial",
   "theorems": [
    "Verif.Strings.count_correct_partial",
    "Verif.Strings.count_default_correct_partial",
    "Verif.Strings.count_refuted_end",
    "Verif.Strings.count_refuted_empty",
    "Verif.Strings.countLoop_correct"
   ],
   "note": "Exact for non-empty needles when no occurrence crosses the end of the range (always so for the default range); otherwise refuted; empty needle diverges."
  },
  {
   "property": "C140",
   "status": "partial",
   "theorems": [
    "Verif.ForkPools.fork_threads",
    "Verif.ForkPools.set_threads",
    "Verif.ForkPools.keeps_partial",
    "Verif.ForkPools.single_partial",
    "Verif.ForkPools.quiet_partial",
    "Verif.ForkPools.count_refuted",
    "Verif.ForkPools.lost_refuted",
    "Verif.ForkPools.off_refuted",
    "Verif.ForkPools.rejected_refuted",
    "Verif.ForkPools.quiet_refuted",
    "Verif.ForkPools.share_refuted",
    "Verif.ForkPools.unregister_partial",
    "Verif.ForkPools.unregister_refuted"
   ],
   "note": "Proved: the number of threads after a fork in closed form (fork_threads); it is kept for sessions that do not share and for a session alone with its name, and no pool exists at the fork as long as no session was closed. False otherwise: shared pools take the size of another session or are lost, sessions made without a pool or with a rejected size get one, a pool can outlive its session, and pools are never shared. References to pools kept by running calls are not modelled."
  },
  {
   "property": "C15",
   "status": "partial",
   "theorems": [
    "Verif.Strings.replace_count_correct",
    "Verif.Strings.replace_all_correct_partial",
    "Verif.Strings.replace_absent",
    "Verif.Strings.replace_refuted_empty"
   ],
   "note": "Non-empty pattern: full. Empty pattern differs from Python (characterised by replace_refuted_empty)."
  },
  {
   "property": "C16",
   "status": "partial",
   "theorems": [
    "Verif.Strings.split_correct_partial",
    "Verif.Strings.split_empty_sep",
    "Verif.Strings.split_refuted",
    "Verif.Strings.join_correct",
    "Verif.Strings.split_join_partial",
    "Verif.Strings.split_pieces_correct",
    "Verif.Strings.split_count_correct"
   ],
   "note": "The code drops one trailing empty piece; everything else of the statement is proved and the failure of the join law is characterised exactly."
  },
  {
   "property": "C17",
   "status": "proved",
   "theorems": [
    "Verif.Strings.lstrip_correct",
    "Verif.Strings.rstrip_correct",
    "Verif.Strings.strip_correct"
   ],
   "note": ""
  },
  {
   "property": "C18",
   "status": "partial",
   "theorems": [
    "Verif.Strings.startsWith_correct_partial",
    "Verif.Strings.endsWith_correct_partial",
    "Verif.Strings.startsWithAny_correct",
    "Verif.Strings.startsWith_refuted_empty"
   ],
   "note": "Exact for non-empty affixes; the empty affix at the end of the string is refuted."
  },
  {
   "property": "C19",
   "status": "proved",
   "theorems": [
    "Verif.Strings.splitWs_correct",
    "Verif.Strings.splitWs_pieces",
    "Verif.Strings.WsSplit.functional"
   ],
   "note": ""
  },
  {
   "property": "C20",
   "status": "partial",
   "theorems": [
    "Verif.Base64.encode_spec",
    "Verif.Base64.encode_form",
    "Verif.Base64.decode_encode_partial",
    "Verif.Base64.decode_any",
    "Verif.Base64.encode_injective",
    "Verif.Base64.encode_4GiB_refuted",
    "Verif.Base64.decode_2GiB_refuted"
   ],
   "note": "Encoder equals RFC 4648; round trip for inputs up to 3*(2^29-1) bytes. Beyond that the 32-bit length counters make it false: 4 GiB encode to the empty text, and a 2^31-character text makes the decoder read past the end (both proved)."
  },
  {
   "property": "C21",
   "status": "proved",
   "theorems": [
    "Verif.Msgpack.loads_dumps_plain",
    "Verif.Msgpack.loads_dumps",
    "Verif.Msgpack.dumps_deep",
    "Verif.Msgpack.dumps_inj",
    "Verif.Msgpack.pack_isSome",
    "Verif.Msgpack.loads_dumps_tuple_refuted",
    "Verif.Msgpack.loads_dumps_tuple_key_refuted",
    "Verif.Msgpack.loads_uint64_wraps_refuted",
    "Verif.Msgpack.loads_dup_first_refuted",
    "Verif.Msgpack.packExtHdr_truncates_refuted",
    "Verif.Msgpack.unpackNd_shape_overflow_refuted"
   ],
   "note": "All plain values nested at most 511 deep; deeper ones raise. loads_dumps extends it to tuples (come back as lists), sets and NDArrays. The refuted theorems are deviations outside the property: tuple keys, foreign uint64, duplicate keys, 4 GiB extensions, shape overflow."
  },
  {
   "property": "C22",
   "status": "partial",
   "theorems": [
    "Verif.Msgpack.loads_ne_oob",
    "Verif.Msgpack.loads_safe_partial",
    "Verif.Msgpack.loads_strict_prefix",
    "Verif.Msgpack.loads_trailing",
    "Verif.Msgpack.loads_timestamp_refuted"
   ],
   "note": "No read past the end for any input; strict prefixes and trailing bytes raise. False for inputs with a timestamp extension, which yields a value whose type code and payload do not belong together (witness); proved safe for every input that does not contain the header of one. Memory exhaustion through reserve(n) and stack depth of nested sets are outside the model."
  },
  {
   "property": "C23",
   "status": "partial",
   "theorems": [
    "Verif.DTypeStr.numeric_round_trip",
    "Verif.DTypeStr.void_handle_round_trip",
    "Verif.DTypeStr.toStr_injective",
    "Verif.DTypeStr.handle_lanes_refuted",
    "Verif.DTypeStr.zero_bits_refuted",
    "Verif.DTypeStr.void_stream_refuted",
    "Verif.DTypeStr.bits_wrap_refuted"
   ],
   "note": "All int/uint/float/bfloat/bool types with 1-255 bits and any lanes, void and the 64-bit handle. False for handles with other widths or lanes and for zero-bit types (witnesses). Custom types not modelled."
  },
  {
   "property": "C24",
   "status": "partial",
   "theorems": [
    "Verif.StrEscape.read_escape",
    "Verif.StrEscape.escape_injective",
    "Verif.StrEscape.escape_printable",
    "Verif.StrEscape.read_escape_trigraphs_partial",
    "Verif.StrEscape.readU_uescape",
    "Verif.StrEscape.unicodeEscape_total",
    "Verif.StrEscape.uescape_no_question",
    "Verif.StrEscape.trigraph_refuted",
    "Verif.StrEscape.trigraph_backslash_refuted",
    "Verif.StrEscape.hex_mode_ambiguous_refuted"
   ],
   "note": "True for every byte string when trigraphs are off and for strings without trigraphs otherwise; false for byte strings containing a trigraph under -std=c++14, which the toolchain uses (witness). str literals: proved for all strings that are accepted (no surrogates)."
  },
  {
   "property": "C25",
   "status": "proved",
   "theorems": [
    "Verif.HashMap.dict_history",
    "Verif.HashMap.iteration_exact",
    "Verif.HashMap.dict_capacity",
    "Verif.HashMap.emplace_room",
    "Verif.HashMap.dict_equal_iff",
    "Verif.HashMap.log2Word_eq",
    "Verif.HashMap.next_size_over_eq",
    "Verif.HashMap.dict_colliding_ints_refuted",
    "Verif.HashMap.colliding_keys_nomem"
   ],
   "note": "All histories, all lawful hash functions. Until memory for 2^lim slots runs out; any lim entries always fit (dict_capacity), and lim+1 adversarial integer keys never do (refuted theorems, outside the property)."
  },
  {
   "property": "C26",
   "status": "partial",
   "theorems": [
    "Verif.HashMap.dict_build_last_wins_refuted",
    "Verif.HashMap.dict_build_first_wins",
    "Verif.HashMap.dict_build_distinct_partial"
   ],
   "note": "False: the first of two equal keys wins. Proved what the Dict holds for any sequence, and the property for sequences without equal keys."
  },
  {
   "property": "C27",
   "status": "partial",
   "theorems": [
    "Verif.HashMap.set_add",
    "Verif.HashMap.set_discard",
    "Verif.HashMap.set_contains",
    "Verif.HashMap.set_update",
    "Verif.HashMap.set_difference_update",
    "Verif.HashMap.set_union",
    "Verif.HashMap.set_difference",
    "Verif.HashMap.set_build",
    "Verif.HashMap.set_clear",
    "Verif.HashMap.set_equal_iff",
    "Verif.HashMap.set_iteration",
    "Verif.HashMap.set_update_self",
    "Verif.HashMap.difference_update_self_refuted"
   ],
   "note": "False for s.difference_update(s), which reads a destroyed element (witness). Proved for all other arguments and for s.update(s)."
  },
  {
   "property": "C28",
   "status": "partial",
   "theorems": [
    "Verif.HashEq.eq_hash_partial",
    "Verif.HashEq.eq_equivalence_partial",
    "Verif.HashEq.eqv_iff",
    "Verif.HashEq.almostEq_comm",
    "Verif.HashEq.hash_double_total",
    "Verif.HashEq.near_floats_hash_refuted",
    "Verif.HashEq.large_int_hash_refuted",
    "Verif.HashEq.inf_equals_finite_refuted",
    "Verif.HashEq.inf_not_reflexive_refuted",
    "Verif.HashEq.not_transitive_refuted",
    "Verif.HashEq.overflow_equal_refuted"
   ],
   "note": "False for general floats and for integers from 2**61 - 1 on against floats (witnesses). Proved for all 64-bit integers, integral floats below 2**48, str, bytes, None and nested tuples of these. Data types, handles and user classes are not modelled."
  },
  {
   "property": "C29",
   "status": "proved",
   "theorems": [
    "Verif.ParallelFor.split_partition",
    "Verif.ParallelFor.split_rejects",
    "Verif.ParallelFor.split_covers_once"
   ],
   "note": ""
  },
  {
   "property": "C30",
   "status": "proved",
   "theorems": [
    "Verif.ParallelFor.parallel_eq_sequential",
    "Verif.ParallelFor.fair_schedule_finishes"
   ],
   "note": "Interleaving at the granularity of loop iterations; the called object is a pure function that may raise."
  },
  {
   "property": "C31",
   "status": "proved",
   "theorems": [
    "Verif.ThreadPool.Locked.fifo_exactly_once",
    "Verif.ThreadPool.Locked.exit_only_when_drained",
    "Verif.ThreadPool.Locked.destroyed_all_done",
    "Verif.ThreadPool.Locked.internal_decreases",
    "Verif.ThreadPool.Locked.stuck_all_done"
   ],
   "note": "Includes absence of lost wake-ups and termination of the destructor (steps of the pool itself strictly decrease a potential). Tasks are assumed to terminate; memory-model races on the completion flag are not modelled."
  },
  {
   "property": "C32",
   "status": "partial",
   "theorems": [
    "Verif.ThreadPool.LockFree.accounted",
    "Verif.ThreadPool.LockFree.no_loss_before_stop_partial",
    "Verif.ThreadPool.LockFree.quiet_shutdown_all_done_partial",
    "Verif.ThreadPool.LockFree.shutdown_loses_task_refuted",
    "Verif.ThreadPool.LockFree.shutdown_leaves_queue_refuted"
   ],
   "note": "The property is false: a worker that has dequeued a task drops it when it sees the stop flag, and queued tasks are abandoned (executions given). Proved: nothing is lost before shutdown, nor when the pool is quiet at shutdown."
  },
  {
   "property": "C33",
   "status": "partial",
   "theorems": [
    "Verif.Mpmc.mpmc_delivery",
    "Verif.Mpmc.dequeue_returns_item",
    "Verif.Mpmc.mpmc_no_overwrite",
    "Verif.Mpmc.mpmc_race_free",
    "Verif.Mpmc.mpmc_order",
    "Verif.Mpmc.mpmc_quiescent",
    "Verif.Mpmc.enqueue_alone",
    "Verif.Mpmc.dequeue_alone",
    "Verif.Mpmc.enqueue_fails_taken",
    "Verif.Mpmc.heads_not_passed",
    "Verif.Mpmc.mpmc_obstruction_free",
    "Verif.Mpmc.enqueue_bulk_refuted"
   ],
   "note": "Proved for enqueue, try_enqueue, dequeue and try_dequeue: all capacities from 2, any number of threads, all interleavings of sequentially consistent steps, spurious compare-exchange failures included. False for enqueue_bulk (witness). Position wrap-around and weaker memory orders are not modelled."
  },
  {
   "property": "C34",
   "status": "proved",
   "theorems": [
    "Verif.Session.topo_sort_correct",
    "Verif.Session.topo_sort_returns_iff"
   ],
   "note": "Includes termination exactly for acyclic graphs."
  },
  {
   "property": "C35",
   "status": "proved",
   "theorems": [
    "Verif.Session.levels_correct",
    "Verif.Session.levels_fail_iff",
    "Verif.Session.levels_minimal"
   ],
   "note": "Also: the layering is the flattest possible."
  },
  {
   "property": "C36",
   "status": "partial",
   "theorems": [
    "Verif.Session.multi_thread_eq_serial_partial",
    "Verif.Session.traced_multi_thread_eq_serial_partial",
    "Verif.Session.serial_solves_equations",
    "Verif.Session.trace_wellFormed",
    "Verif.Session.only_variables_refuted",
    "Verif.Session.error_differs_refuted"
   ],
   "note": "Equal results for every pipeline with a computed node, every thread count, task size and interleaving (interleaving at node granularity, operators pure). False for pipelines that only pass inputs through (multi-threaded run returns nothing), and the reported exception may differ when several operators throw."
  },
  {
   "property": "C37",
   "status": "proved",
   "theorems": [
    "Verif.Liveness.live_terminates",
    "Verif.Liveness.live_exact",
    "Verif.Liveness.live_fuel_irrelevant",
    "Verif.Liveness.node_live_exactVerif.CfgPipeline.build_live_exact",
    "Verif.CfgPipeline.live_sound_exec_partial"
   ],
   "note": "Exact for all graphs with links inside the block list, which is shown for every graph the builder makes. Paths are those of the built graph; whether these include all executions is C40."
  },
  {
   "property": "C38",
   "status": "proved",
   "theorems": [
    "Verif.ReachDef.reach_terminates",
    "Verif.ReachDef.reach_out_exact",
    "Verif.ReachDef.reach_in_exact",
    "Verif.ReachDef.use_def_exactVerif.CfgPipeline.build_reach_exact",
    "Verif.CfgPipeline.use_def_sound_exec_partial"
   ],
   "note": "Exact for all well-formed graphs, which every built graph is. The order of several stores of one name within one statement is taken as given. Paths are those of the built graph; see C40."
  },
  {
   "property": "C39",
   "status": "partial",
   "theorems": [
    "Verif.Dominators.dom_terminates",
    "Verif.Dominators.dom_sound",
    "Verif.Dominators.dom_exact_partial",
    "Verif.Dominators.idom_exact_partial",
    "Verif.Dominators.involved_exact",
    "Verif.Dominators.frontier_exact_partialVerif.CfgPipeline.dom_exact_refuted"
   ],
   "note": "False on built graphs: blocks after a loop preceded by other statements lose their dominators (witness). Proved: no false dominators on any graph; exact sets, immediate dominators and frontiers on graphs where all predecessors are registered and no registered block is dead."
  },
  {
   "property": "C40",
   "status": "partial",
   "theorems": [
    "Verif.CfgBuild.cfg_covers_partial",
    "Verif.CfgBuild.buildFn_grVerif.CfgPipeline.try_refuted",
    "Verif.CfgPipeline.while_else_refuted",
    "Verif.CfgPipeline.live_sound_exec_partial",
    "Verif.CfgPipeline.use_def_sound_exec_partial"
   ],
   "note": "False for try (even without an exception) and for while-else followed by a statement (witnesses). Proved for bodies of simple statements, if, for, while, break, continue, return and for-else, nested to any depth. Nested functions and with are not modelled."
  },
  {
   "property": "C41",
   "status": "partial",
   "theorems": [
    "Verif.Broadcast.broadcast_sound_partial",
    "Verif.Broadcast.broadcast_exact_partial",
    "Verif.Broadcast.broadcast_scalar_partial",
    "Verif.Broadcast.inner_one_rejected_refuted",
    "Verif.Broadcast.leading_one_shape_refuted",
    "Verif.Broadcast.leading_one_accepted_refuted",
    "Verif.Broadcast.both_leading_one_refuted",
    "Verif.Broadcast.empty_shape_refuted"
   ],
   "note": "False when a shape has an axis of one next to others, and for the empty shape (witnesses). Proved: sound under every valuation of the symbols when neither shape starts with one; exact for shapes without ones, and for an all-ones shape with a shape that does not start with one. sympy's equality and simplification enter through their contract."
  },
  {
   "property": "C42",
   "status": "partial",
   "theorems": [
    "Verif.Fuse.fuse_keeps",
    "Verif.Fuse.visit_total",
    "Verif.Fuse.visit_keeps",
    "Verif.Fuse.built_graph_computes",
    "Verif.Fuse.fused_kernel_computes_partial",
    "Verif.Fuse.fused_kernel_total_partial",
    "Verif.Fuse.reused_tensor_loses_value_refuted",
    "Verif.Fuse.same_operand_raises_refuted",
    "Verif.Fuse.reused_scalar_raises_refuted"
   ],
   "note": "False when a computed tensor or scalar is used twice and for a + a (witnesses). Proved for every kernel body whose computed values are read by one instruction each, every iteration order of the input sets and every input: the pass ends without an error and the fused graph has exactly the value the body defines at every index. Shapes enter through ranks only; data types through the functions of the operators."
  },
  {
   "property": "C43",
   "status": "partial",
   "theorems": [
    "Verif.Session.trace_cost_exponential_refuted",
    "Verif.Session.trace_cost_chain_partial"
   ],
   "note": "False: dfs_visit does not stop at visited nodes, so the cost is the number of paths (exponential witness family). Proved: linear in the depth for one-input nodes."
  },
  {
   "property": "C44",
   "status": "partial",
   "theorems": [
    "Verif.SessionAlias.feed_destroyed_refuted",
    "Verif.SessionAlias.feed_preserved_partial"
   ],
   "note": "False: a multi-output operator returning its argument empties the caller's tuple. Proved when operators return new tuples."
  },
  {
   "property": "C45",
   "status": "proved",
   "theorems": [
    "Verif.UniqueIndex.names_distinct",
    "Verif.UniqueIndex.signatures_distinct",
    "Verif.UniqueIndex.signature_returns"
   ],
   "note": ""
  },
  {
   "property": "C46",
   "status": "proved",
   "theorems": [
    "Verif.Msgpack.packInt_minimal"
   ],
   "note": ""
  },
  {
   "property": "C47",
   "status": "partial",
   "theorems": [
    "Verif.PdqSort.sort_stable_refuted",
    "Verif.PdqSort.reverse_sort_stable_refuted",
    "Verif.PdqSort.sort_stable_short_partial"
   ],
   "note": "False from 24 elements on (witness), and with reverse=True already for two elements. Proved stable below 24 elements without reverse."
  },
  {
   "property": "C48",
   "status": "partial",
   "theorems": [
    "Verif.KernelArith.arith_numpy_partial",
    "Verif.KernelArith.arith_exact_partial",
    "Verif.KernelArith.floordiv_signed_partial",
    "Verif.KernelArith.floordiv_unsigned_partial",
    "Verif.KernelArith.mod_signed_exact",
    "Verif.KernelArith.mod_small_divisor_partial",
    "Verif.KernelArith.bool_arith_refuted",
    "Verif.KernelArith.floordiv_unsigned_refuted",
    "Verif.KernelArith.mod_refuted"
   ],
   "note": "False for a boolean operand, for unsigned division and remainder above half of the range, and for a remainder whose intermediate sum overflows (witnesses). Proved for all widths: + - * on all integer types; // on signed types; % on signed types exactly when the sum does not overflow. Semantics of the arith dialect are trusted."
  },
  {
   "property": "C49",
   "status": "partial",
   "theorems": [
    "Verif.KernelArith.compare_signed",
    "Verif.KernelArith.compare_unsigned",
    "Verif.KernelArith.compare_float",
    "Verif.KernelArith.not_exact",
    "Verif.KernelArith.not_bool",
    "Verif.KernelArith.compare_unsigned_refuted",
    "Verif.KernelArith.nan_ne_refuted",
    "Verif.KernelArith.not_refuted"
   ],
   "note": "False for order comparisons of unsigned numbers on different sides of half of the range, for != on NaN and for not on numbers (witnesses); each theorem says exactly when the result is right. Operands of two different types are not modelled."
  },
  {
   "property": "C50",
   "status": "partial",
   "theorems": [
    "Verif.KernelArith.cast_exact_partial",
    "Verif.KernelArith.cast_i_u_wider",
    "Verif.KernelArith.cast_bool_i",
    "Verif.KernelArith.cast_u_bool",
    "Verif.KernelArith.cast_refuted"
   ],
   "note": "False for True to a signed type, negative numbers to a wider unsigned type and even numbers to bool (witnesses, with exact conditions). Proved for all other pairs of integer types. Conversions from and to floating point are not modelled."
  },
  {
   "property": "C51",
   "status": "proved",
   "theorems": [
    "Verif.Cedar.history",
    "Verif.Cedar.update_represents",
    "Verif.Cedar.init_represents"
   ],
   "note": "For every history of updates with non-empty NUL-free keys; sums are taken modulo 2^32 (signed overflow in the code is taken to wrap). The theorem says the double array represents the map; C52 is what a search sees of it. save, load and restore are not modelled."
  },
  {
   "property": "C52",
   "status": "partial",
   "theorems": [
    "Verif.Cedar.uPrefixSearchAll_partial",
    "Verif.Cedar.uPrefixSearch_partial",
    "Verif.Cedar.prefixSearchAll_partial",
    "Verif.Cedar.prefixSearch_partial",
    "Verif.Cedar.prefixes_eq",
    "Verif.Cedar.update_overwrites_refuted",
    "Verif.Cedar.default_index_found_refuted",
    "Verif.Cedar.longer_found_refuted",
    "Verif.Cedar.value_kept_refuted",
    "Verif.Cedar.nul_text_refuted",
    "Verif.Cedar.nul_key_refuted",
    "Verif.Cedar.empty_key_refuted",
    "Verif.Cedar.many_matches_refuted"
   ],
   "note": "False for keys with the index -1 (the default) or -2, for more than 64 matching keys, and for a NUL in a text or key (witnesses). Proved for all other histories, texts and positions; prefixes_eq says exactly what is reported for the indices -1 and -2."
  },
  {
   "property": "C53",
   "status": "partial",
   "theorems": [
    "Verif.CodegenOpt.moves_unobservable_partial",
    "Verif.CodegenOpt.moves_unobservable_one",
    "Verif.CodegenOpt.moves_unobservable_readonly",
    "Verif.CodegenOpt.compiled_eq_source_partial",
    "Verif.CodegenOpt.move_refuted",
    "Verif.CodegenOpt.move_plain_refuted"
   ],
   "note": "False: a store that is the last use of one parameter moves from another that is read later (witnesses: an NDArray stored in self and returned; a = b; c = b). Proved for all straight-line bodies without such a store, in particular with a single parameter or when all parameters become references."
  },
  {
   "property": "C54",
   "status": "partial",
   "theorems": [
    "Verif.CodegenOpt.mem_refArgs",
    "Verif.CodegenOpt.callByRef_eq_partial",
    "Verif.CodegenOpt.byRef_refuted"
   ],
   "note": "False when an attribute is passed and the body rebinds the attribute (witness). Proved for all bodies and arguments where no location shared with the caller gets a new value during the body. Generators, lambdas and exception handlers are not modelled."
  },
  {
   "property": "C55",
   "status": "partial",
   "theorems": [
    "Verif.NDArray.view_agrees",
    "Verif.NDArray.view_accepts",
    "Verif.NDArray.view_raises",
    "Verif.NDArray.chain_agrees",
    "Verif.NDArray.chain_elem",
    "Verif.NDArray.reshape_uneven_refuted",
    "Verif.NDArray.squeeze_negative_refuted"
   ],
   "note": "False for reshape with an unknown dimension that does not come out even, which drops elements, and for negative squeeze axes, which raise (witnesses); reshape, squeeze and unsqueeze of arrays that are not contiguous raise where NumPy returns a view. Proved that these are the only differences, for single operations and chains."
  },
  {
   "property": "C56",
   "status": "partial",
   "theorems": [
    "Verif.NDArray.exec_safe_partial",
    "Verif.NDArray.view_safe_partial",
    "Verif.NDArray.view_safe_refuted",
    "Verif.NDArray.asType_scalar_refuted",
    "Verif.NDArray.setItem_scalar_refuted",
    "Verif.NDArray.setSlice_memcpy_refuted"
   ],
   "note": "False for arrays without dimensions (items, as_type, item assignment) and for assignments between overlapping views of one type, which call memcpy on overlapping memory (witnesses). Proved for all programs without these."
  },
  {
   "property": "C57",
   "status": "partial",
   "theorems": [
    "Verif.NDArray.toList_spec_partial",
    "Verif.NDArray.iterate_spec_partial",
    "Verif.NDArray.contiguous_keeps",
    "Verif.NDArray.asType_keeps_partial",
    "Verif.NDArray.equal_spec_partial",
    "Verif.NDArray.toList_scalar_refuted",
    "Verif.NDArray.equal_offset_refuted"
   ],
   "note": "False for arrays without dimensions, and for equality, which ignores the offset of views (witnesses). Proved for all arrays with dimensions; equality for contiguous arrays without offset, the others raise or differ as refuted."
  },
  {
   "property": "C58",
   "status": "partial",
   "theorems": [
    "Verif.NDArray.setItem_spec_partial",
    "Verif.NDArray.fusedSet_spec_partial",
    "Verif.NDArray.setSlice_spec_partial",
    "Verif.NDArray.setSlice_overlap_refuted",
    "Verif.NDArray.setSlice_memcpy_refuted",
    "Verif.NDArray.setItem_scalar_refuted",
    "Verif.NDArray.fusedSet_toomany_refuted",
    "Verif.NDArray.setSlice_empty_refuted"
   ],
   "note": "False when the source shares elements with the target, for sources without dimensions, more indices than dimensions and empty slices (witnesses). A number is not broadcast over a region. Proved for all other assignments, with the exact condition for raising."
  },
  {
   "property": "C59",
   "status": "proved",
   "theorems": [
    "Verif.NDArray.binary_spec",
    "Verif.NDArray.scalarOp_spec",
    "Verif.NDArray.broadcastShape_iff"
   ],
   "note": "For every element operation; C++ arithmetic on single elements and the choice of the result type are parameters. Boolean arrays raise in every operation and are outside."
  },
  {
   "property": "C60",
   "status": "proved",
   "theorems": [
    "Verif.NDArray.concatenate_spec",
    "Verif.NDArray.stack_spec"
   ],
   "note": "The C++ conversion between element types is a parameter."
  },
  {
   "property": "C61",
   "status": "proved",
   "theorems": [
    "Verif.NDArray.make_spec",
    "Verif.NDArray.make_ragged",
    "Verif.NDArray.make_toList"
   ],
   "note": "On the CPU, for lists of Python lists and numbers. An empty list with a shape gives an array with unspecified contents, as documented by the specification Builds. The conversion of a number to the element type is a parameter; the round trip is for numbers it does not change."
  },
  {
   "property": "C62",
   "status": "partial",
   "theorems": [
    "Verif.Lower.compiled_eq_python_partial",
    "Verif.Lower.compiled_eq_python_tame",
    "Verif.Lower.argument_order_refuted",
    "Verif.Lower.assigned_value_kept_refuted",
    "Verif.Lower.not_object_refuted",
    "Verif.Lower.iterate_while_growing_refuted"
   ],
   "note": "False where C++ leaves the order of arguments open, where a variable keeps its first type, for `not` of an object and for a list that grows while it is iterated (witnesses), and for the constructs of C63-C68. Proved for all functions outside these, by simulation; exact equality without loops over lists and with unit steps. Operations are parameters; comprehensions, generators, closures and `with` are not modelled."
  },
  {
   "property": "C63",
   "status": "partial",
   "theorems": [
    "Verif.Lower.if_condition_faithful",
    "Verif.Lower.bool_operands_faithful",
    "Verif.Lower.and_or_short_circuit_refuted"
   ],
   "note": "False outside conditions of `if` when an operand is not a bool: both operands are evaluated (witness). Proved for conditions of `if` with operands of any type and for bool operands anywhere."
  },
  {
   "property": "C64",
   "status": "partial",
   "theorems": [
    "Verif.Lower.chain_faithful",
    "Verif.Lower.chain_operand_once_refuted",
    "Verif.Lower.chain_in_drops_refuted"
   ],
   "note": "False for inner operands with effects, evaluated twice, and for chains with `in`, which drop the other links (witnesses). Proved for chains of relations of any length with inner operands without effects."
  },
  {
   "property": "C65",
   "status": "partial",
   "theorems": [
    "Verif.Lower.sim",
    "Verif.Lower.compiled_eq_python_partial",
    "Verif.Lower.aug_target_once_refuted",
    "Verif.Lower.aug_alias_refuted"
   ],
   "note": "False: the target is evaluated twice, and `xs += ys` makes a new list (witnesses). Proved for integers and targets without effects, as part of the simulation."
  },
  {
   "property": "C66",
   "status": "partial",
   "theorems": [
    "Verif.Lower.sim",
    "Verif.Lower.compiled_eq_python_partial",
    "Verif.Lower.unpack_self_refuted",
    "Verif.Lower.unpack_length_refuted"
   ],
   "note": "False for `a, b = e`, which reads a variable e again after assigning to it, and raises AssertionError for a wrong length (witnesses). Proved for `a, b = e1, e2` with any targets, as part of the simulation."
  },
  {
   "property": "C67",
   "status": "partial",
   "theorems": [
    "Verif.Lower.sim",
    "Verif.Lower.pyRange_step",
    "Verif.Lower.compiled_eq_python_tame",
    "Verif.Lower.range_stop_reread_refuted",
    "Verif.Lower.range_step_zero_refuted"
   ],
   "note": "False when the body assigns the variable that is the bound, and for step 0 (witnesses). Proved for literal steps other than 0 and bounds that are not assigned in the body, as part of the simulation."
  },
  {
   "property": "C68",
   "status": "partial",
   "theorems": [
    "Verif.Lower.unsupported_rejected_partial",
    "Verif.Lower.iterated_list_kept_partial",
    "Verif.Lower.loop_else_rejected_refuted",
    "Verif.Lower.finally_rejected_refuted",
    "Verif.Lower.typed_except_rejected_refuted"
   ],
   "note": "False: bodies of while, of for over range and of for over anything but a name are not checked, and the clauses are dropped silently (witnesses). Proved where all loops are over names."
  },
  {
   "property": "C69",
   "status": "proved",
   "theorems": [
    "Verif.Lower.accepted_reads_assigned"
   ],
   "note": "For functions without the clauses that C68 shows to be dropped, and without chains with `in` beyond a single comparison, whose operands are dropped likewise."
  },
  {
   "property": "C70",
   "status": "proved",
   "theorems": [
    "Verif.StrCore.strings_are_values",
    "Verif.StrCore.step_spec",
    "Verif.StrCore.run_spec"
   ],
   "note": "For all programs over the modelled operations whose positions are in range; `insert` of a part of the string itself is excluded (C73)."
  },
  {
   "property": "C71",
   "status": "proved",
   "theorems": [
    "Verif.StrCore.strings_memory_safe",
    "Verif.StrCore.strings_buffers_owned",
    "Verif.StrCore.strings_no_leak"
   ],
   "note": "One thread; same programs as C70. `malloc` does not fail."
  },
  {
   "property": "C72",
   "status": "partial",
   "theorems": [
    "Verif.StrCore.strings_terminated_partial",
    "Verif.StrCore.unboxed_not_terminated_refuted"
   ],
   "note": "False for a short string moved out of an Any: only the characters are copied, the cell after them is not written (witness). Proved for programs without that move."
  },
  {
   "property": "C73",
   "status": "partial",
   "theorems": [
    "Verif.StrCore.own_part_partial",
    "Verif.StrCore.insert_own_part_refuted",
    "Verif.StrCore.insert_own_part_after_free_refuted"
   ],
   "note": "False for insert, which reads its argument after moving the tail, or from freed storage (witnesses). Proved for append, assign and replace."
  },
  {
   "property": "C74",
   "status": "proved",
   "theorems": [
    "Verif.StrCore.appending_is_linear",
    "Verif.StrCore.reserve_then_append",
    "Verif.StrCore.append_growth"
   ],
   "note": "Counts the characters moved when the buffer changes; the cost of malloc itself is not modelled."
  },
  {
   "property": "C75",
   "status": "partial",
   "theorems": [
    "Verif.FileIO.readlines_partial",
    "Verif.FileIO.vocabulary_partial",
    "Verif.FileIO.for_lines_partial",
    "Verif.FileIO.readlines_large_partial",
    "Verif.FileIO.lines_flatten",
    "Verif.FileIO.lines_unique",
    "Verif.FileIO.for_empty_refuted",
    "Verif.FileIO.for_one_line_refuted",
    "Verif.FileIO.readlines_large_refuted",
    "Verif.FileIO.vocabulary_refuted",
    "Verif.FileIO.pipe_refuted"
   ],
   "note": "False: `for` sees an extra empty line in an empty file and in a file of one terminated line; a line that ends where the buffer ends may be overwritten before it is copied (witnesses for every capacity). Proved for files that fit into the buffer (`for`: at least two lines or no final newline) and for larger files whose lines do not end at the end of a buffer."
  },
  {
   "property": "C76",
   "status": "partial",
   "theorems": [
    "Verif.FileIO.reading_partial",
    "Verif.FileIO.spec_flatten",
    "Verif.FileIO.read_text_partial",
    "Verif.FileIO.read_text_refuted",
    "Verif.FileIO.read_text_all_refuted",
    "Verif.FileIO.read_large_refuted",
    "Verif.FileIO.last_line_twice_refuted"
   ],
   "note": "False: read() of a text file is always empty; read(n) with n larger than the buffer returns too much; a last line without newline is returned again by read() (witnesses). Proved for all sequences of calls on binary files that fit and end with a newline, and for read(n), n > 0, of text files that fit."
  },
  {
   "property": "C77",
   "status": "partial",
   "theorems": [
    "Verif.FileIO.lines_in_bounds",
    "Verif.FileIO.reading_partial",
    "Verif.FileIO.read_bounds_refuted",
    "Verif.FileIO.readline_freed_refuted"
   ],
   "note": "False: read(n) with n larger than the buffer reads outside it, and read(capacity) followed by a line of that length uses a buffer that was given back (witnesses). Proved for line-wise reading of all files under all deliveries, and for all calls on files that fit and end with a newline."
  },
  {
   "property": "C78",
   "status": "partial",
   "theorems": [
    "Verif.Random.generator_is_mt19937",
    "Verif.Random.seed_reproducible",
    "Verif.Random.seeded_not_stuck",
    "Verif.Random.outputs_determine",
    "Verif.Random.seed_like_python_iff",
    "Verif.Random.seed_like_python_refuted",
    "Verif.Random.seed_distinct_partial",
    "Verif.Random.seed_distinct_refuted",
    "Verif.Random.seed_collision"
   ],
   "note": "Proved: the draws are the MT19937 sequence of the state for any number of draws, a seed fixes the state, 624 words are never all zero. False: for |n| >= 2^32 the halves of the key are swapped, so the sequence is Python's exactly if |n| < 2^32 or both halves are equal; seed(h*2^32+h-1) equals seed(h). Proved for seeds of the same number of 32-bit words: different sequences."
  },
  {
   "property": "C79",
   "status": "partial",
   "theorems": [
    "Verif.Random.getrandbits_spec",
    "Verif.Random.getrandbits_raises",
    "Verif.Random.getrandbits_64",
    "Verif.Random.getrandbits_truncates",
    "Verif.Random.bitsInDigit_spec",
    "Verif.Random.randbelow_spec",
    "Verif.Random.randbelow_ends",
    "Verif.Random.randint_spec",
    "Verif.Random.randint_empty_partial",
    "Verif.Random.randint_wide_refuted",
    "Verif.Random.randint_empty_refuted",
    "Verif.Random.random_spec",
    "Verif.Random.bits_uniform_short",
    "Verif.Random.bits_uniform_long",
    "Verif.Random.random_uniform"
   ],
   "note": "False: getrandbits(64) can be negative, k is taken modulo 2^32, randint over 2^63 or more numbers raises, and an empty interval with ends further apart than 2^63 does not raise. Proved for 1 <= k <= 63 and for intervals of fewer than 2^63 numbers. That the rejection loop ends is proved under the condition that some attempt is accepted. The distributions over floats are not modelled."
  },
  {
   "property": "C80",
   "status": "partial",
   "theorems": [
    "Verif.Random.setstate_getstate",
    "Verif.Random.setstate_good",
    "Verif.Random.setstate_failed_gen",
    "Verif.Random.setstate_version",
    "Verif.Random.setstate_failed_refuted",
    "Verif.Random.setstate_minus_one_refuted",
    "Verif.Random.seed_forgets"
   ],
   "note": "Proved: restoring a saved state gives the saved object; no argument makes the generator read outside its array; a failing call keeps the words. False: a failing call has replaced gauss_next; a word or index -1 is ignored without an error."
  },
  {
   "property": "C81",
   "status": "partial",
   "theorems": [
    "Verif.Random.Race.draws_serial",
    "Verif.Random.Race.seed_race_refuted",
    "Verif.Random.Race.random_torn_refuted"
   ],
   "note": "Proved for any number of threads that only draw words: no read outside the array, and the words are the serial ones. False: seeding does not take the lock of the object, so a concurrent draw reads outside the array; random() takes the lock twice, so two calls can exchange halves."
  },
  {
   "property": "C82",
   "status": "partial",
   "theorems": [
    "Verif.Pickle.saved_value_loads_partial",
    "Verif.Pickle.distinct_values_distinct_documents_partial",
    "Verif.Pickle.refused_iff",
    "Verif.Pickle.long_data_raises",
    "Verif.Pickle.old_tuple_and_swapped_members",
    "Verif.Pickle.deserialize_serialize_partial",
    "Verif.Pickle.function_saved_but_not_loadable_refuted",
    "Verif.Pickle.surrogates_refused_refuted",
    "Verif.Pickle.short_data_uninitialised_refuted",
    "Verif.Pickle.tuple_size_ignored_refuted",
    "Verif.Pickle.textLaws_satisfiable"
   ],
   "note": "Proved for values of any depth on the level of JSON documents, and on the level of text for every writer and parser with the stated laws (rapidjson is not in the repository). False: functions are saved but never load; strings with surrogates are refused; an array document with too few numbers loads with memory that was never written; the stated size of a tuple is ignored. Missing: that rapidjson has the laws, in particular for floats."
  },
  {
   "property": "C83",
   "status": "partial",
   "theorems": [
    "Verif.Pickle.loads_dumps_partial",
    "Verif.Pickle.loaded_value_stable_partial",
    "Verif.Pickle.dumped_string_reads_as_container_refuted",
    "Verif.Pickle.none_dumped_empty_refuted",
    "Verif.Pickle.large_integers_wrap_refuted",
    "Verif.Pickle.booleans_become_integers_refuted",
    "Verif.Pickle.bytes_become_str_refuted",
    "Verif.Pickle.keys_collapse_refuted"
   ],
   "note": "Proved for lists and dicts with string keys, nested to any depth, for every writer and parser with the stated laws. False: a string at top level is dumped without quotes and None as the empty text; integers of 2^63 and more load as negative numbers; booleans come back as integers, bytes as str; integer and string keys collapse."
  },
  {
   "property": "C84",
   "status": "partial",
   "theorems": [
    "Verif.IntParse.int_reads_decimal",
    "Verif.IntParse.int_reads_base_partial",
    "Verif.IntParse.int_decimal_iff_partial",
    "Verif.IntParse.int_str_partial",
    "Verif.IntParse.str_injective",
    "Verif.IntParse.letters_refused_refuted",
    "Verif.IntParse.digits_cut_refuted",
    "Verif.IntParse.later_calls_raise_refuted",
    "Verif.IntParse.null_character_cuts_refuted",
    "Verif.IntParse.zero_base0_refuted",
    "Verif.IntParse.int_str_least_refuted"
   ],
   "note": "Proved: in base 10 an exact characterisation for texts without underscores and null characters; in all bases the texts with decimal digits and prefixes; int(str(n)) == n but for the least integer. False: letters as digits are refused in every base; digits the base lacks cut the number instead of raising; after one number out of range every later call of the thread raises (errno is never cleared); a null character ends the text; int('0', 0) raises; int(str(-2**63)) raises."
  },
  {
   "property": "C85",
   "status": "partial",
   "theorems": [
    "Verif.Generator.generator_same_partial",
    "Verif.Generator.nested_rejected",
    "Verif.Generator.declared_in_loop_rejected",
    "Verif.Generator.no_for_accepted",
    "Verif.Generator.exhausted_restarts",
    "Verif.Generator.exhausted_refuted",
    "Verif.Generator.return_refuted",
    "Verif.Generator.raised_refuted",
    "Verif.Generator.raised_in_yield_refuted",
    "Verif.Generator.zero_step_refuted"
   ],
   "note": "Proved as a simulation for every accepted body without return whose range loops have a literal step and a bound that the body does not assign, up to the end or the first exception, with arbitrary changes of the heap between the calls. False: after the end next() runs the body again; return does not end the generator but repeats the last value for ever; after an exception the generator goes on; a step of 0 does not raise. Nested for loops and variables first assigned in a for body before a yield do not compile. Missing: try, zip and enumerate, integer overflow in range loops, variable steps."
  },
  {
   "property": "C86",
   "status": "partial",
   "theorems": [
    "Verif.Generator.for_same_partial",
    "Verif.Generator.for_break_refuted"
   ],
   "note": "Proved for loops that run to the end of a new generator (for the bodies of C85). False for break, for every generator: the loop has already taken the next element, which is lost. Missing: a loop body that changes what the generator reads (the next element is computed before the body runs)."
  },
  {
   "property": "C87",
   "status": "partial",
   "theorems": [
    "Verif.Regex.split_python_partial",
    "Verif.Regex.split_weave",
    "Verif.Regex.split_noMatch",
    "Verif.Regex.split_ends",
    "Verif.Regex.split_chars_partial",
    "Verif.Regex.split_trailing_refuted",
    "Verif.Regex.errors_silent_refuted",
    "Verif.Regex.split_empty_refuted",
    "Verif.Regex.split_second_match_refuted"
   ],
   "note": "Proved for every engine with the laws of Lawful (a match lies between the offset and the end) that does not fail: the pieces are those of the matches Python finds when no empty match is followed by another match at its place, without the last piece if it is empty; pieces and matches make up the subject; the loop ends also when the engine fails. False: the empty piece after a separator at the end is lost (for every text); a failing match gives the empty list; an empty match before a multi-byte character cuts the character; a second match at the place of an empty one is missed. PCRE itself is a parameter."
  },
  {
   "property": "C88",
   "status": "partial",
   "theorems": [
    "Verif.Regex.replace_python_partial",
    "Verif.Regex.replace_whole_match",
    "Verif.Regex.replace_join",
    "Verif.Regex.replace_escape",
    "Verif.Regex.template_meaning",
    "Verif.Regex.template_grammar",
    "Verif.Regex.expand_some",
    "Verif.Regex.replace_ends",
    "Verif.Regex.template_error_refuted",
    "Verif.Regex.template_name_refuted",
    "Verif.Regex.template_last_dollar_refuted",
    "Verif.Regex.template_number_refuted"
   ],
   "note": "Proved: every match is replaced by the template (same conditions as C87), replacing by $0 changes nothing for every engine, doubled dollar signs insert any text literally, every template of the notation has its meaning, the two passes over a template agree. False: a bad template, and so every $name, leaves the text unchanged without an error; the number of a group wraps at 2^63."
  },
  {
   "property": "C89",
   "status": "partial",
   "theorems": [
    "Verif.Regex.match_groups_partial",
    "Verif.Regex.match_names_partial",
    "Verif.Regex.match_names_only",
    "Verif.Regex.match_options_refuted",
    "Verif.Regex.match_empty_refuted",
    "Verif.Regex.match_offset_refuted",
    "Verif.Regex.match_high_name_refuted",
    "Verif.Regex.match_start_refuted",
    "Verif.Regex.load_null_refuted"
   ],
   "note": "Proved for non-empty subjects, offsets inside and no option but anchored. False: with ignore_case, dotall or extended match never matches; the empty text is never matched; offsets wrap at 2^32; named groups with a number whose low byte is 128 or more are left out; a str is matched from the offset as if it began there, bytes are not; a pattern is cut at a null byte."
  },
  {
   "property": "C90",
   "status": "partial",
   "theorems": [
    "Verif.Bfc.live_disjoint",
    "Verif.Bfc.live_inside",
    "Verif.Bfc.alloc_total",
    "Verif.Bfc.free_total",
    "Verif.Bfc.live_aligned",
    "Verif.Bfc.alloc_returns_partial",
    "Verif.Bfc.hang_refuted",
    "Verif.Bfc.alignment_refuted",
    "Verif.Bfc.wrap_refuted"
   ],
   "note": "Proved for all runs of Alloc and Free, requests below 2^64-255, limits up to 2^62, every device whose memory does not overlap: blocks are disjoint, inside and at multiples of 256 from the start of the device memory; Free of a live block succeeds; Alloc gives a block or an error, or does not return. Returning is proved for devices that do not refuse below the limit. False: after 44 refused requests Alloc never returns; the alignment asked for is ignored; a request of 2^64-255 bytes or more succeeds and the next one is given the same pointer. Not covered: Shrink, Reserve (never called), what happens after a failed check."
  },
  {
   "property": "C91",
   "status": "proved",
   "theorems": [
    "Verif.Bfc.vacant_reused",
    "Verif.Bfc.region_reused",
    "Verif.Bfc.freed_reused",
    "Verif.Bfc.best_fit",
    "Verif.Bfc.failure_justified"
   ],
   "note": "For all runs with requests below 2^64-255. Gaps are measured with AllocatedSize, requests rounded up to 256."
  },
  {
   "property": "C92",
   "status": "partial",
   "theorems": [
    "Verif.Bfc.free_dead_partial",
    "Verif.Bfc.double_free",
    "Verif.Bfc.interior_pointer_refuted",
    "Verif.Bfc.foreign_refuted"
   ],
   "note": "Proved for pointers into memory of the arena that are not in the first 256 bytes of a live block; freeing twice in a row always fails. False: a pointer into the first 256 bytes of a live block frees it; a pointer outside is an invalid access."
  },
  {
   "property": "C93",
   "status": "proved",
   "theorems": [
    "Verif.Bfc.sizes_reported",
    "Verif.Bfc.used_is_sum"
   ],
   "note": "For all runs with requests below 2^64-255."
  },
  {
   "property": "C94",
   "status": "proved",
   "theorems": [
    "Verif.Deps.compile_exact",
    "Verif.Deps.dependencies_nodup"
   ],
   "note": "For all graphs in which finitely many objects can be reached; the number of rounds is at most their number."
  },
  {
   "property": "C95",
   "status": "partial",
   "theorems": [
    "Verif.Deps.compile_order_partial",
    "Verif.Deps.first_dependency_partial",
    "Verif.Deps.compile_order_refuted",
    "Verif.Deps.base_class_order_refuted"
   ],
   "note": "Proved: without cycles everything comes after its dependencies; with cycles still the first dependency (for a class its base class) unless it depends on its user. False: a function that calls itself is compiled before the functions it names afterwards; a derived class is compiled before a base class that uses it."
  },
  {
   "property": "C96",
   "status": "partial",
   "theorems": [
    "Verif.Deps.dependencies_complete_partial",
    "Verif.Deps.program_complete_partial",
    "Verif.Deps.dependencies_mentioned",
    "Verif.Deps.annotation_missed_refuted",
    "Verif.Deps.parameter_taken_for_global_refuted"
   ],
   "note": "Proved for sources in which no annotation or default names a parameter of the same function: everything used, also indirectly, is compiled, and nothing that is not named. False: def f(Foo: Foo) misses the class Foo; after a nested function the parameters of the outer one are taken for global names."
  },
  {
   "property": "C97",
   "status": "partial",
   "theorems": [
    "Verif.Deps.function_name_partial",
    "Verif.Deps.function_name_refuted",
    "Verif.Deps.class_name_partial",
    "Verif.Deps.class_foreign_name_refuted",
    "Verif.Deps.class_builtin_name_refuted",
    "Verif.Deps.class_local_name_refuted"
   ],
   "note": "Proved for functions, except closure variables named like a builtin and like an attribute used in the function; for classes at the top of the module that compiles them. False: in a class compiled from another module, names of its methods (other than __init__) stand for what the other module defines, or for builtins; in a class inside a function they stand for what the module defines."
  },
  {
   "property": "C98",
   "status": "partial",
   "theorems": [
    "Verif.CallArgs.packed_call_partial",
    "Verif.CallArgs.good_error",
    "Verif.CallArgs.Mistake.not_binds",
    "Verif.CallArgs.too_many_arguments_refuted",
    "Verif.CallArgs.c_word_parameter_refuted"
   ],
   "note": "Proved without keywords for all calls; with keywords for not more positional arguments than parameters and parameters not named like a word of C. False: otherwise the function writes behind an array on its stack, or reports a given argument as missing."
  },
  {
   "property": "C99",
   "status": "partial",
   "theorems": [
    "Verif.CallArgs.function_call_partial",
    "Verif.CallArgs.good_error",
    "Verif.CallArgs.extra_argument_refuted"
   ],
   "note": "Proved for calls with not more positional arguments than parameters (a default that is not a constant is rejected by the compiler). False: further positional arguments are silently dropped."
  }
 ]
}