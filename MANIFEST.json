{
 "claims": [
  {
   "property": "C01",
   "status": "proved",
   "theorems": [
    "Helper.LRU.C01_size",
    "Helper.LRU.C01_queries"
   ],
   "note": "One thread (C121 for several); insertions that throw are C07."
  },
  {
   "property": "C02",
   "status": "proved",
   "theorems": [
    "Helper.LRU.C02_notFull",
    "Helper.LRU.C02_evictsLeastRecentlyUsed",
    "Helper.LRU.C02_queriesAreNotUses"
   ],
   "note": "One thread (C121 for several); insertions that throw are C07."
  },
  {
   "property": "C03",
   "status": "proved",
   "theorems": [
    "Helper.LRU.C03_lists_exists",
    "Helper.LRU.C03_age",
    "Helper.LRU.C03_ages_permutation",
    "Helper.LRU.C03_justUsed",
    "Helper.LRU.C03_age_lt"
   ],
   "note": "One thread (C121 for several); insertions that throw are C07."
  },
  {
   "property": "C04",
   "status": "proved",
   "theorems": [
    "Helper.LRU.C04_present",
    "Helper.LRU.C04_get",
    "Helper.LRU.C04_hasLabel_call"
   ],
   "note": "One thread (C121 for several); insertions that throw are C07."
  },
  {
   "property": "C05",
   "status": "proved",
   "theorems": [
    "Helper.LRU.C05_construct",
    "Helper.LRU.C05_failingCall",
    "Helper.LRU.C05_outcomes"
   ],
   "note": "One thread (C121 for several); insertions that throw are C07."
  },
  {
   "property": "C06",
   "status": "partial",
   "theorems": [
    "Helper.LRU.C06_stable",
    "Helper.LRU.C06_dangles",
    "Helper.LRU.C06_putRef_partial",
    "Helper.LRU.C06_putRef_refuted",
    "Helper.LRU.C06_putLabel_partial",
    "Helper.LRU.C06_putLabel_refuted"
   ],
   "note": "The reference part is proved in full. The statement about put is false for a full cache whose least recently used label owns the reference: put evicts before it copies (lru_cache.hpp:90-92). The refutation and the exact extent (if and only if) are proved."
  },
  {
   "property": "C07",
   "status": "partial",
   "theorems": [
    "Helper.LRU.C07_ub_refuted",
    "Helper.LRU.C07_order_refuted",
    "Helper.LRU.C07_contents_partial",
    "Helper.LRU.C07_throwingPut_partial",
    "Helper.LRU.C07_capacityOne_partial",
    "Helper.LRU.C07_undefined_iff_partial",
    "Helper.LRU.C07_every_capacity_refuted",
    "Helper.LRU.C07_repair_partial"
   ],
   "note": "False as stated: after an insertion that throws, ages are no longer 0..size-1; a later put evicts the wrong label or erases end(). What survives (size bound, values, effect of the throwing put, capacity 1) is proved, and also exactly when a put is undefined, that for every capacity above 1 one throwing insertion makes the n-th following put undefined, and that getting every present label once repairs the cache."
  },
  {
   "property": "C08",
   "status": "proved",
   "theorems": [
    "Helper.BinWord.C08_lexicographic",
    "Helper.BinWord.C08_irrefl",
    "Helper.BinWord.C08_trans",
    "Helper.BinWord.C08_trichotomy"
   ],
   "note": ""
  },
  {
   "property": "C09",
   "status": "proved",
   "theorems": [
    "Helper.BinWord.C09_isPrefix",
    "Helper.BinWord.C09_refl",
    "Helper.BinWord.C09_antisymm",
    "Helper.BinWord.C09_trans"
   ],
   "note": ""
  },
  {
   "property": "C10",
   "status": "proved",
   "theorems": [
    "Helper.BinWord.C10_isSubword"
   ],
   "note": ""
  },
  {
   "property": "C11",
   "status": "partial",
   "theorems": [
    "Helper.BinWord.C11_general",
    "Helper.BinWord.C11_erasePrefix_partial",
    "Helper.BinWord.C11_refuted"
   ],
   "note": "False for words of 2^31 bits and more: size() is converted to int (binary_word.hpp:131). C11_general gives the exact behaviour for every word and k."
  },
  {
   "property": "C12",
   "status": "partial",
   "theorems": [
    "Helper.BinWord.C12_appendBit",
    "Helper.BinWord.C12_append_partial",
    "Helper.BinWord.C12_self_refuted",
    "Helper.BinWord.C12_self_empty"
   ],
   "note": "False for w.append(w) with w non-empty: the loop re-reads size() and does not terminate. Proved for distinct words and for the empty word."
  },
  {
   "property": "C13",
   "status": "proved",
   "theorems": [
    "Helper.BinWord.C13_roundTrip",
    "Helper.BinWord.C13_bracketed"
   ],
   "note": "StringType is taken to be std::string; binary_word.hpp does not declare it (C117)."
  },
  {
   "property": "C14",
   "status": "partial",
   "theorems": [
    "Helper.BinWord.C14_blank_refuted",
    "Helper.BinWord.C14_run_partial",
    "Helper.BinWord.C14_bracket_partial"
   ],
   "note": "False for blank strings: the uninitialised variable `symbol` is used. The two partial theorems cover every other string."
  },
  {
   "property": "C15",
   "status": "partial",
   "theorems": [
    "Helper.BinWord.C15_general",
    "Helper.BinWord.C15_iff_partial",
    "Helper.BinWord.C15_refuted",
    "Helper.BinWord.C15_written"
   ],
   "note": "False when a non-empty word follows an empty one: the character e is put back and blocks the stream. The exact set of sequences for which it holds is proved."
  },
  {
   "property": "C16",
   "status": "partial",
   "theorems": [
    "Helper.BinWord.C16_refuted",
    "Helper.BinWord.C16_format_partial"
   ],
   "note": "False: boolalpha is left set after every non-empty word. The exact effect on the stream is proved."
  },
  {
   "property": "C17",
   "status": "proved",
   "theorems": [
    "Helper.BinWord.C17_bytes",
    "Helper.BinWord.C17_setBack",
    "Helper.BinWord.C17_setBack_empty"
   ],
   "note": "Lengths are below 2^63, the maximal size of a vector of Booleans."
  },
  {
   "property": "C18",
   "status": "proved",
   "theorems": [
    "Helper.Seq.C18_writeSequence",
    "Helper.Seq.C18_writePointerSequence",
    "Helper.Seq.C18_writePointerSequence_null",
    "Helper.Seq.C18_printVector",
    "Helper.Seq.C18_printSet",
    "Helper.Seq.C18_printList"
   ],
   "note": "Streams that have not failed, items that write a text."
  },
  {
   "property": "C19",
   "status": "proved",
   "theorems": [
    "Helper.Seq.C19_roundTrip",
    "Helper.Seq.C19_vector",
    "Helper.Seq.C19_sameDelimiters"
   ],
   "note": "C locale (C113 for others), streams without an exception mask."
  },
  {
   "property": "C20",
   "status": "proved",
   "theorems": [
    "Helper.Seq.C20_readSequence",
    "Helper.Seq.C20_unique",
    "Helper.Seq.C20_readVector_int"
   ],
   "note": "C locale (C113 for others), streams without an exception mask."
  },
  {
   "property": "C21",
   "status": "partial",
   "theorems": [
    "Helper.Seq.C21_blankInput_refuted",
    "Helper.Seq.C21_notGood_refuted",
    "Helper.Seq.C21_noIndeterminate_partial"
   ],
   "note": "False: on every blank input the uninitialised variable c is compared (stlio.hpp:152-158)."
  },
  {
   "property": "C22",
   "status": "partial",
   "theorems": [
    "Helper.Seq.C22_writeMapSequence",
    "Helper.Seq.C22_writeMapPointerSequence",
    "Helper.Seq.C22_printMap",
    "Helper.Seq.C22_printPair",
    "Helper.Seq.C22_printTuple_partial",
    "Helper.Seq.C22_refuted"
   ],
   "note": "False for std::tuple<>, for which operator<< does not compile (stlio.hpp:193-199, C22_refuted). Proved for everything else, for streams that have not failed and items that write a text. For which types operator<< is found is C86."
  },
  {
   "property": "C23",
   "status": "partial",
   "theorems": [
    "Helper.Arr.C23_values_partial",
    "Helper.Arr.C23_moved_partial",
    "Helper.Arr.C23_refuted"
   ],
   "note": "False (C23_refuted) where sizes do not fit into the address space and the size of the allocation wraps around, and for assign from a part of the array itself, which reads freed storage. Proved for all other histories."
  },
  {
   "property": "C24",
   "status": "proved",
   "theorems": [
    "Helper.Arr.C24_copy",
    "Helper.Arr.C24_independent",
    "Helper.Arr.C24_swap"
   ],
   "note": "Operations that are defined; exceptions are C29."
  },
  {
   "property": "C25",
   "status": "partial",
   "theorems": [
    "Helper.Arr.C25_noLeak_partial",
    "Helper.Arr.C25_owned_partial",
    "Helper.Arr.C25_balance",
    "Helper.Arr.C25_moveAssign_leaks",
    "Helper.Arr.C25_refuted"
   ],
   "note": "False: move assignment overwrites the pointer of its target without freeing it (array.hpp:134-135). Proved for histories without move assignment to a non-empty array; C25_moveAssign_leaks says exactly what is lost."
  },
  {
   "property": "C26",
   "status": "partial",
   "theorems": [
    "Helper.Arr.C26_resize_partial",
    "Helper.Arr.C26_reallocate_partial",
    "Helper.Arr.C26_refuted"
   ],
   "note": "False if n*sizeof(T) is 2^64 or more: the size of the allocation wraps around (C26_refuted). Proved below that."
  },
  {
   "property": "C27",
   "status": "proved",
   "theorems": [
    "Helper.Arr.C27_access",
    "Helper.Arr.C27_undefined",
    "Helper.Arr.C27_write"
   ],
   "note": ""
  },
  {
   "property": "C28",
   "status": "proved",
   "theorems": [
    "Helper.Arr.C28_eq",
    "Helper.Arr.C28_eq_iff"
   ],
   "note": ""
  },
  {
   "property": "C29",
   "status": "partial",
   "theorems": [
    "Helper.Arr.C29_destructible_partial",
    "Helper.Arr.C29_strong_partial",
    "Helper.Arr.C29_iff_partial",
    "Helper.Arr.C29_danger_refuted",
    "Helper.Arr.C29_alloc_refuted",
    "Helper.Arr.C29_refuted"
   ],
   "note": "False: copy assignment and reallocate free the old storage before allocating; an allocation failure leaves the array with a dangling pointer that its destructor frees again, and an element constructor that throws leaves raw elements that its destructor destroys. C29_iff_partial: an operation that throws leaves its target destructible exactly when it is neither a copy assignment between different sizes nor a reallocate to another size."
  },
  {
   "property": "C30",
   "status": "partial",
   "theorems": [
    "Helper.Arr.C30_refuted",
    "Helper.Arr.C30_fits_partial"
   ],
   "note": "False: size*sizeof(T) wraps modulo 2^64 (array.hpp:55), so an oversized request yields a short buffer. Proved when the product fits."
  },
  {
   "property": "C31",
   "status": "partial",
   "theorems": [
    "Helper.Arr.C31_fill",
    "Helper.Arr.C31_fillFrom",
    "Helper.Arr.C31_assign_partial",
    "Helper.Arr.C31_assign_refuted"
   ],
   "note": "fill is proved. assign is false for a range inside the array itself, whose storage is freed before it is read; proved for every other range."
  },
  {
   "property": "C32",
   "status": "partial",
   "theorems": [
    "Helper.Arr.C32_complement_partial",
    "Helper.Arr.C32_undefined",
    "Helper.Arr.C32_iff",
    "Helper.Arr.C32_refuted"
   ],
   "note": "False if the complement has 2^61 elements or more: the size of its allocation wraps around (C32_refuted). Proved below that; C32_iff says exactly for which arguments the call is defined."
  },
  {
   "property": "C33",
   "status": "proved",
   "theorems": [
    "Helper.Shared.C33_shared",
    "Helper.Shared.C33_freed"
   ],
   "note": "Allocations and assignments of elements do not throw (C78) and there is one thread (C118)."
  },
  {
   "property": "C34",
   "status": "partial",
   "theorems": [
    "Helper.Shared.C34_refuted",
    "Helper.Shared.C34_refuted_example"
   ],
   "note": "False: the destructor decrements the pointer _count instead of the counter and then reads in front of it (array.hpp:231); C34_refuted shows this for every live SharedArray in every state, so there is no part of the property left to prove."
  },
  {
   "property": "C35",
   "status": "proved",
   "theorems": [
    "Helper.SetC.C35_contains",
    "Helper.SetC.C35_subset",
    "Helper.SetC.C35_disjoint"
   ],
   "note": "Comparisons are strict weak orders and do not throw; allocations that fail are C81."
  },
  {
   "property": "C36",
   "status": "proved",
   "theorems": [
    "Helper.SetC.C36_adjoin",
    "Helper.SetC.C36_join",
    "Helper.SetC.C36_remove",
    "Helper.SetC.C36_removeElem",
    "Helper.SetC.C36_removeList",
    "Helper.SetC.C36_restrict",
    "Helper.SetC.C36_intersection",
    "Helper.SetC.C36_intersectionList",
    "Helper.SetC.C36_difference"
   ],
   "note": "Comparisons are strict weak orders and do not throw; allocations that fail are C81."
  },
  {
   "property": "C37",
   "status": "partial",
   "theorems": [
    "Helper.SetC.C37_refuted",
    "Helper.SetC.C37_actual",
    "Helper.SetC.C37_iff_partial"
   ],
   "note": "False: the member restrict has the code of remove (container.hpp:197-200). Its exact effect is proved, and that the property holds for the empty set only."
  },
  {
   "property": "C38",
   "status": "proved",
   "theorems": [
    "Helper.SetC.C38_increasing",
    "Helper.SetC.C38_makeSet",
    "Helper.SetC.C38_roundTrip"
   ],
   "note": "Comparisons are strict weak orders and do not throw; allocations that fail are C81."
  },
  {
   "property": "C39",
   "status": "proved",
   "theorems": [
    "Helper.MapC.C39_get",
    "Helper.MapC.C39_insert",
    "Helper.MapC.C39_index",
    "Helper.MapC.C39_assign"
   ],
   "note": "Comparisons are strict weak orders and do not throw; allocations that fail are C81."
  },
  {
   "property": "C40",
   "status": "proved",
   "theorems": [
    "Helper.MapC.C40_adjoin",
    "Helper.MapC.C40_join"
   ],
   "note": "Comparisons are strict weak orders and do not throw; allocations that fail are C81."
  },
  {
   "property": "C41",
   "status": "partial",
   "theorems": [
    "Helper.MapC.C41_keys",
    "Helper.MapC.C41_values",
    "Helper.MapC.C41_restrictKeys_partial",
    "Helper.MapC.C41_restrictKeys_refuted",
    "Helper.MapC.C41_removeKeys"
   ],
   "note": "keys, values and remove_keys are proved. restrict_keys casts its std::set argument down to Set (container.hpp:289), which is undefined for a plain std::set; proved for Set arguments."
  },
  {
   "property": "C42",
   "status": "proved",
   "theorems": [
    "Helper.SetC.C42_unique",
    "Helper.SetC.C42_duplicate",
    "Helper.SetC.C42_unique_iff"
   ],
   "note": "Comparisons are strict weak orders and do not throw; allocations that fail are C81."
  },
  {
   "property": "C43",
   "status": "partial",
   "theorems": [
    "Helper.ListC.C43_appendElem",
    "Helper.ListC.C43_catenate",
    "Helper.ListC.C43_append_partial",
    "Helper.ListC.C43_diverges_refuted",
    "Helper.ListC.C43_selfEmpty",
    "Helper.ListC.C43_construct"
   ],
   "note": "False for append(vector) and concatenate with 2^32 or more elements (unsigned int counter) and for a non-empty list appended to itself: the loop does not terminate. Every other case is proved."
  },
  {
   "property": "C44",
   "status": "partial",
   "theorems": [
    "Helper.ListC.C44_apply_partial",
    "Helper.ListC.C44_pure",
    "Helper.ListC.C44_elementwise2",
    "Helper.ListC.C44_sizes",
    "Helper.ListC.C44_ndebug",
    "Helper.ListC.Changing.C124_apply_refuted"
   ],
   "note": "Proved for functions that do not change the list they are applied to; for those that do it is false (C124_apply_refuted, C124_shrink_refuted). The sizes are compared by assert, so not with NDEBUG (C44_ndebug)."
  },
  {
   "property": "C45",
   "status": "proved",
   "theorems": [
    "Helper.Range.C45_visits",
    "Helper.Range.C45_forward",
    "Helper.Range.C45_wraps",
    "Helper.Range.C45_range1"
   ],
   "note": ""
  },
  {
   "property": "C46",
   "status": "proved",
   "theorems": [
    "Helper.Iter.C46_compare",
    "Helper.Iter.C46_diff",
    "Helper.Iter.C46_move",
    "Helper.Iter.C46_laws",
    "Helper.Iter.C46_overflow"
   ],
   "note": ""
  },
  {
   "property": "C47",
   "status": "proved",
   "theorems": [
    "Helper.Iter.C47_forward",
    "Helper.Iter.C47_iterate",
    "Helper.Iter.C47_pair",
    "Helper.Iter.C47_pair_failure"
   ],
   "note": ""
  },
  {
   "property": "C48",
   "status": "proved",
   "theorems": [
    "Helper.Lazy.C48_onlyEval",
    "Helper.Lazy.C48_construct",
    "Helper.Lazy.C48_first",
    "Helper.Lazy.C48_later",
    "Helper.Lazy.C48_reachable"
   ],
   "note": "Factories do not use the variable they make (C123); one thread (C50)."
  },
  {
   "property": "C49",
   "status": "proved",
   "theorems": [
    "Helper.Lazy.C49_retries",
    "Helper.Lazy.C49_failing",
    "Helper.Lazy.C49_null",
    "Helper.Lazy.C49_defined",
    "Helper.Lazy.C49_empty"
   ],
   "note": ""
  },
  {
   "property": "C50",
   "status": "partial",
   "theorems": [
    "Helper.Lazy.Threads.C50_refuted",
    "Helper.Lazy.Threads.C50_race_refuted",
    "Helper.Lazy.Threads.C50_serial_partial",
    "Helper.Lazy.Threads.C50_evaluated_partial"
   ],
   "note": "False: operator() tests and resets _obj without synchronisation (lazy.hpp:47). Any two concurrent first evaluations race, and some schedules call the factory in every thread and delete objects in use. Proved for threads serialised from outside and for a Lazy evaluated before the threads start."
  },
  {
   "property": "C51",
   "status": "proved",
   "theorems": [
    "Helper.Lazy.C51_after",
    "Helper.Lazy.C51_before",
    "Helper.Lazy.C51_own",
    "Helper.Lazy.C51_different",
    "Helper.Lazy.C51_move"
   ],
   "note": ""
  },
  {
   "property": "C52",
   "status": "proved",
   "theorems": [
    "Helper.Stopwatch.C52_forms",
    "Helper.Stopwatch.C52_duration",
    "Helper.Stopwatch.C52_unique",
    "Helper.Stopwatch.C52_zero",
    "Helper.Stopwatch.C52_stable"
   ],
   "note": ""
  },
  {
   "property": "C53",
   "status": "proved",
   "theorems": [
    "Helper.Stopwatch.C53_monotone",
    "Helper.Stopwatch.C53_accurate",
    "Helper.Stopwatch.C53_elapsed",
    "Helper.Stopwatch.C53_backwards"
   ],
   "note": "Seconds are exact rationals here; C102 is about doubles."
  },
  {
   "property": "C54",
   "status": "proved",
   "theorems": [
    "Helper.Handle.C54_change",
    "Helper.Handle.C54_managed",
    "Helper.Handle.C54_throw",
    "Helper.Handle.C54_history",
    "Helper.Handle.C54_agree"
   ],
   "note": "One thread (C101)."
  },
  {
   "property": "C55",
   "status": "partial",
   "theorems": [
    "Helper.Handle.C55_refuted",
    "Helper.Handle.C55_actual",
    "Helper.Handle.C55_unshared_partial",
    "Helper.Handle.C55_after_ref_partial"
   ],
   "note": "False: the non-const dynamic_handle_extract (handle.hpp:160-169) does not make the object unique, so the change is seen through every handle that shares it. The exact effect is proved, and the property for a handle that does not share its object."
  },
  {
   "property": "C56",
   "status": "partial",
   "theorems": [
    "Helper.Handle.C56_refuted",
    "Helper.Handle.C56_partial",
    "Helper.Handle.C56_obtained"
   ],
   "note": "False: every call of a non-const accessor clones and deletes the object, even if unshared (handle.hpp:108-109). Proved for histories without such calls on the handle."
  },
  {
   "property": "C57",
   "status": "partial",
   "theorems": [
    "Helper.Handle.C57_cast_partial",
    "Helper.Handle.C57_extract_partial",
    "Helper.Handle.C57_extractOp_partial",
    "Helper.Handle.Hierarchy.C57_refuted",
    "Helper.Handle.Hierarchy.C131_classes"
   ],
   "note": "False if the target is repeated in the object, whose casts then fail (C57_refuted). Proved for public bases that are not repeated; C131 is for all hierarchies."
  },
  {
   "property": "C58",
   "status": "partial",
   "theorems": [
    "Helper.Variant.C58_accept",
    "Helper.Variant.C58_alternative_partial",
    "Helper.Variant.C58_holds",
    "Helper.Variant.C58_wellFormed",
    "Helper.Variant.C58_narrowing",
    "Helper.Variant.C58_refuted"
   ],
   "note": "False for codes that are not values of the code type of the variant: they are converted without a diagnostic, so that the variant holds no alternative (C58_narrowing) or another one (C58_refuted). Proved for codes of the code type, which all enumerations are, and for all codes in C132."
  },
  {
   "property": "C59",
   "status": "proved",
   "theorems": [
    "Helper.Meta.C59_areAllSame",
    "Helper.Meta.C59_isOneOf",
    "Helper.Meta.C59_indexOf",
    "Helper.Meta.C59_indexOf_none",
    "Helper.Meta.C59_first_second"
   ],
   "note": ""
  },
  {
   "property": "C60",
   "status": "proved",
   "theorems": [
    "Helper.TupleC.C60_pair",
    "Helper.TupleC.C60_swap",
    "Helper.TupleC.C60_refs",
    "Helper.TupleC.C60_refs_noSwap",
    "Helper.TupleC.C60_tuple",
    "Helper.TupleC.C60_tuple_size",
    "Helper.TupleC.C60_tupleRefs_size",
    "Helper.TupleC.C60_tupleRefs",
    "Helper.TupleC.C60_get"
   ],
   "note": "Copies and assignments of the components do not throw."
  },
  {
   "property": "C61",
   "status": "partial",
   "theorems": [
    "Helper.Macro.C61_asserts",
    "Helper.Macro.C61_ndebug",
    "Helper.Macro.C61_equal",
    "Helper.Macro.C61_operands",
    "Helper.Macro.C61_fail",
    "Helper.Macro.C61_iff",
    "Helper.Macro.C61_msg_refuted",
    "Helper.Macro.C61_equal_refuted"
   ],
   "note": "False where the message contains user expressions (the _MSG forms and HELPER_ASSERT_EQUAL, which evaluates its arguments again): an exception of the message replaces std::runtime_error. All other cases are proved."
  },
  {
   "property": "C62",
   "status": "partial",
   "theorems": [
    "Helper.Macro.C62_history_partial",
    "Helper.Macro.C62_once_partial",
    "Helper.Macro.C62_throw_refuted"
   ],
   "note": "False if writing the message of HELPER_WARN_ONCE throws at the first visit: it is then never printed (C62_throw_refuted). Proved for messages that can be written, in one thread (C103 for several)."
  },
  {
   "property": "C63",
   "status": "partial",
   "theorems": [
    "Helper.TestC.C63_count_partial",
    "Helper.TestC.C63_overflow_refuted",
    "Helper.TestC.C63_anyNumber",
    "Helper.TestC.C63_call",
    "Helper.TestC.C63_other"
   ],
   "note": "Proved for every test program with fewer than 2^31 failures; beyond, the int counter overflows, which is undefined."
  },
  {
   "property": "C64",
   "status": "partial",
   "theorems": [
    "Helper.TestC.C64_status",
    "Helper.TestC.C64_refuted",
    "Helper.TestC.C64_small_partial",
    "Helper.TestC.C64_exact"
   ],
   "note": "False: the exit status is the number of failures modulo 256. Proved for fewer than 256 failures."
  },
  {
   "property": "C65",
   "status": "partial",
   "theorems": [
    "Helper.TestC.C65_rel",
    "Helper.TestC.C65_pass_partial",
    "Helper.TestC.C65_pass2_partial",
    "Helper.TestC.C65_fail_partial",
    "Helper.TestC.C65_compare_refuted",
    "Helper.TestC.C65_predicate_refuted",
    "Helper.TestC.C65_verdict_refuted"
   ],
   "note": "False for HELPER_TEST_COMPARE, HELPER_TEST_RESULT_COMPARE and the predicate macros, which evaluate operands twice when passing. Proved for the other checks."
  },
  {
   "property": "C66",
   "status": "partial",
   "theorems": [
    "Helper.StackTrace.C66_named_partial",
    "Helper.StackTrace.C66_count_partial",
    "Helper.StackTrace.C66_noName_refuted",
    "Helper.StackTrace.C66_memory_refuted",
    "Helper.StackTrace.C66_noInfo_partial",
    "Helper.StackTrace.C66_disabled"
   ],
   "note": "False: for a frame in a known object file that matches no symbol dli_sname is null and is written to std::cerr (stack_trace.cpp:57), which is undefined. Proved for stacks whose frames have names or no information."
  },
  {
   "property": "C67",
   "status": "partial",
   "theorems": [
    "Helper.Randomiser.C67_make",
    "Helper.Randomiser.C67_int",
    "Helper.Randomiser.C67_real_partial",
    "Helper.Randomiser.C67_real_refuted",
    "Helper.Randomiser.C67_shared_partial",
    "Helper.Randomiser.C67_units_refuted"
   ],
   "note": "The interval is proved from the specification of the standard distributions. False for reals with min=max (empty interval) and for several translation units, each of which has its own engine (randomiser.hpp:59)."
  },
  {
   "property": "C68",
   "status": "partial",
   "theorems": [
    "Helper.Writable.C68_interface",
    "Helper.Writable.C68_chain",
    "Helper.Writable.C68_texts",
    "Helper.Writable.C68_temporary",
    "Helper.Writable.C68_chainTemp_partial",
    "Helper.Writable.C68_chainTemp_refuted"
   ],
   "note": "Proved for WritableInterface. For WritableTemporary the chain continues on the stream the writer returns; proved for writers that return their argument."
  },
  {
   "property": "C69",
   "status": "proved",
   "theorems": [
    "Helper.Seq.C69_text",
    "Helper.Seq.C69_string",
    "Helper.Seq.C69_int_injective",
    "Helper.Seq.C69_int_numeral"
   ],
   "note": "Streams that have not failed, items that write a text."
  },
  {
   "property": "C70",
   "status": "proved",
   "theorems": [
    "Helper.Arr.C70_reversed",
    "Helper.Arr.Reversed.C70_ndebug",
    "Helper.Arr.Reversed.C70_assign"
   ],
   "note": "With NDEBUG there is no assertion, and no array either: the construction throws or is undefined (C70_ndebug). So for assign, which has none (C70_assign)."
  },
  {
   "property": "C71",
   "status": "proved",
   "theorems": [
    "Helper.Lazy.C71_ownership"
   ],
   "note": ""
  },
  {
   "property": "C72",
   "status": "proved",
   "theorems": [
    "Helper.Handle.C72_lifetime",
    "Helper.Handle.C72_read",
    "Helper.Handle.C72_read_any",
    "Helper.Handle.C72_last"
   ],
   "note": "One thread (C101 for several). What was last written is given by a store in which nothing is deleted (C72_last)."
  },
  {
   "property": "C73",
   "status": "partial",
   "theorems": [
    "Helper.Variant.C73_refuted",
    "Helper.Variant.C73_const_partial"
   ],
   "note": "False: accept casts the constness of the visitor away (variant.inl.hpp:173) and calls a non-const operator(). Proved for call operators that do not change the visitor."
  },
  {
   "property": "C74",
   "status": "partial",
   "theorems": [
    "Helper.TestC.C74_actual",
    "Helper.TestC.C74_term_partial",
    "Helper.TestC.C74_refuted"
   ],
   "note": "False: the arguments of HELPER_TEST_WITHIN are not parenthesised (test.hpp:309), so abs(e-a+b) is computed for x=a+b. Proved for a single term."
  },
  {
   "property": "C75",
   "status": "partial",
   "theorems": [
    "Helper.Randomiser.C75_refuted",
    "Helper.Randomiser.C75_own_partial"
   ],
   "note": "False: RandomiserInterface (randomiser.hpp:61) has a virtual function but no virtual destructor."
  },
  {
   "property": "C76",
   "status": "partial",
   "theorems": [
    "Helper.Writable.C76_refuted",
    "Helper.Writable.C76_exact_partial",
    "Helper.Writable.C76_effect_partial"
   ],
   "note": "False: IsWritable tests the call with an rvalue stream (writable.hpp:56), so it is false for every _write(ostream&). The types it holds for are characterised."
  },
  {
   "property": "C77",
   "status": "partial",
   "theorems": [
    "Helper.Arr.C77_uninitialised_partial",
    "Helper.Arr.C77_lost",
    "Helper.Arr.C77_refuted"
   ],
   "note": "False if n*sizeof(T) is 2^64 or more: the size of the allocation wraps around (C77_refuted). Proved below that."
  },
  {
   "property": "C78",
   "status": "partial",
   "theorems": [
    "Helper.Shared.C78_nothing_throws_partial",
    "Helper.Shared.C78_counter_partial",
    "Helper.Shared.C78_buffer_refuted",
    "Helper.Shared.C78_element_refuted",
    "Helper.Shared.C78_element_beyond_partial"
   ],
   "note": "False: if new T[n] throws, the counter is never freed (array.hpp:232); if the assignment of an element throws (array.hpp:234, 236), the destructor runs, which is undefined (see C34). Holds if only the allocation of the counter throws."
  },
  {
   "property": "C79",
   "status": "partial",
   "theorems": [
    "Helper.Arr.C79_same",
    "Helper.Arr.C79_values_partial",
    "Helper.Arr.C79_refuted"
   ],
   "note": "False for lengths whose byte size is 2^64 or more (C79_refuted). The effects are those of construction from the converted values, always (C79_same); the values are proved for lengths whose byte size is below that."
  },
  {
   "property": "C80",
   "status": "partial",
   "theorems": [
    "Helper.ListC.C80_linked",
    "Helper.ListC.C80_count_partial",
    "Helper.ListC.C80_count_refuted"
   ],
   "note": "False for counts of 2^32 or more, which are converted to unsigned int (container.hpp:144). The constructor from a count and a value, append(LinkedList) and concatenate do not compile."
  },
  {
   "property": "C81",
   "status": "proved",
   "theorems": [
    "Helper.SetC.C81_no_fault",
    "Helper.SetC.C81_adjoin",
    "Helper.SetC.C81_sweep",
    "Helper.SetC.C81_removeList",
    "Helper.SetC.C81_mapAdjoin",
    "Helper.SetC.C81_removeKeys",
    "Helper.SetC.C81_append",
    "Helper.SetC.C81_append_ends",
    "Helper.SetC.C81_append_other"
   ],
   "note": "The exception thrown is taken to be bad_alloc. An append whose index wraps around goes on until an exception; what the list is then is part of C81_append."
  },
  {
   "property": "C82",
   "status": "partial",
   "theorems": [
    "Helper.Seq.C82_same",
    "Helper.Seq.C82_item",
    "Helper.Seq.C82_text",
    "Helper.Seq.C82_ints",
    "Helper.Seq.C82_words_partial",
    "Helper.Seq.C82_words_refuted"
   ],
   "note": "Proved for integers in the range of their type and for non-empty words, at every depth. False for empty words: a vector holding one anywhere is written with an 'e' that makes the reader throw (C82_words_refuted)."
  },
  {
   "property": "C83",
   "status": "partial",
   "theorems": [
    "Helper.Meta.C83_concept",
    "Helper.Meta.C83_isInvocable_partial",
    "Helper.Meta.C83_scalar_refuted",
    "Helper.Meta.C83_refuted",
    "Helper.Meta.C83_void_refuted",
    "Helper.Meta.C83_trait_partial",
    "Helper.Meta.C83_explicit"
   ],
   "note": "False: IsInvocableReturning tests an assignment to an rvalue (metaprogramming.hpp:125), so it is false for every scalar and for void; both traits are defined for one argument only. The concepts, which the library uses, are right."
  },
  {
   "property": "C84",
   "status": "partial",
   "theorems": [
    "Helper.Overload.C84_ranks",
    "Helper.Overload.C84_list_partial",
    "Helper.Overload.C84_array_partial",
    "Helper.Overload.C84_list_refuted",
    "Helper.Overload.C84_array_refuted",
    "Helper.Overload.C84_value"
   ],
   "note": "False: for a List (derived from std::vector) the generic overload is the better match, so make_list(List) and make_array(List) have one element, the list; the same for std::set; make_list(Array) does not compile."
  },
  {
   "property": "C85",
   "status": "partial",
   "theorems": [
    "Helper.Overload.C85_array_partial",
    "Helper.Overload.C85_array_refuted",
    "Helper.Overload.C85_list",
    "Helper.Overload.C85_arith",
    "Helper.Overload.C85_arrayTypes_partial",
    "Helper.Overload.C85_list_refuted",
    "Helper.Overload.C85_list_partial"
   ],
   "note": "False: Array<int>(3,5) selects the iterator constructor and does not compile; List<int>(3) is the list with the element 3; List<double>(3) is ambiguous. All cases are characterised."
  },
  {
   "property": "C86",
   "status": "partial",
   "theorems": [
    "Helper.Lookup.C86_assoc",
    "Helper.Lookup.C86_exact",
    "Helper.Lookup.C86_library_partial",
    "Helper.Lookup.C86_own_partial",
    "Helper.Lookup.C86_vectors_partial",
    "Helper.Lookup.C86_refuted",
    "Helper.Lookup.C86_tuple_refuted"
   ],
   "note": "False: std::tuple<int,int>, Array<std::vector<int>>, std::vector<std::set<int>>, List<std::set<int>>, std::list<std::vector<int>> and std::pair<int,std::vector<int>> cannot be printed, as the printer (or write_tuple) is not found from the place where it is needed. Exactly the printable types are characterised."
  },
  {
   "property": "C87",
   "status": "partial",
   "theorems": [
    "Helper.Seq.C87_same",
    "Helper.Seq.C87_contents_partial",
    "Helper.Seq.C87_throws_partial",
    "Helper.Seq.C87_unique",
    "Helper.Seq.C87_throw",
    "Helper.Seq.C87_undefined",
    "Helper.Seq.C87_blankOpening",
    "Helper.Seq.C87_refuted"
   ],
   "note": "False for a blank as separator, which is skipped and never seen (C87_refuted). Proved for delimiters that are not blanks, the closing one different from the others (C87_throws_partial also for equal ones), for streams without an exception mask in the C locale."
  },
  {
   "property": "C88",
   "status": "proved",
   "theorems": [
    "Helper.Arr.C88_held",
    "Helper.Arr.C88_released",
    "Helper.Arr.C88_dropped",
    "Helper.Arr.C88_history",
    "Helper.Arr.C88_loop",
    "Helper.Arr.C88_update",
    "Helper.Arr.C88_ends"
   ],
   "note": "Operations that are defined; exceptions are C29."
  },
  {
   "property": "C89",
   "status": "partial",
   "theorems": [
    "Helper.Lazy.C89_exact",
    "Helper.Lazy.C89_deterministic",
    "Helper.Lazy.C89_client",
    "Helper.Lazy.C89_reentrant",
    "Helper.Lazy.C89_endless",
    "Helper.Lazy.C89_refuted",
    "Helper.Lazy.C89_depth",
    "Helper.Lazy.C89_acyclic_partial",
    "Helper.Lazy.C89_plain"
   ],
   "note": "False: a factory that evaluates its own variable is called again, and the object of the inner evaluation is deleted when the outer one resets the pointer (lazy.hpp:47), or the evaluation never ends. Holds if no factory evaluates its own variable, directly or through others; what the client gets is safe in every case."
  },
  {
   "property": "C90",
   "status": "partial",
   "theorems": [
    "Helper.TestC.C90_erase",
    "Helper.TestC.C90_reports_partial",
    "Helper.TestC.C90_atMost",
    "Helper.TestC.C90_silent",
    "Helper.TestC.C90_refuted"
   ],
   "note": "False: the expressions are evaluated again for the message (after the failure is counted); if that throws, the failure is counted but not reported. Holds if these evaluations do not throw. There are never more reports than failures, and without a failure nothing is written."
  },
  {
   "property": "C91",
   "status": "partial",
   "theorems": [
    "Helper.TestC.C91_assert",
    "Helper.TestC.C91_check_partial",
    "Helper.TestC.C91_same_partial",
    "Helper.TestC.C91_sameAs_partial",
    "Helper.TestC.C91_equal_partial",
    "Helper.TestC.C91_notEqual_partial",
    "Helper.TestC.C91_equals_partial",
    "Helper.TestC.C91_within_partial",
    "Helper.TestC.C91_less_partial",
    "Helper.TestC.C91_unaryPredicate_partial",
    "Helper.TestC.C91_binaryPredicate_partial",
    "Helper.TestC.C91_compare_partial",
    "Helper.TestC.C91_resultCompare_partial",
    "Helper.TestC.C91_checkWarn_partial",
    "Helper.TestC.C91_staticAssert",
    "Helper.TestC.C91_title",
    "Helper.TestC.C91_comment",
    "Helper.TestC.C91_warn_partial",
    "Helper.TestC.C91_notify_partial",
    "Helper.TestC.C91_print",
    "Helper.TestC.C91_skip",
    "Helper.TestC.C91_construct",
    "Helper.TestC.C91_try",
    "Helper.TestC.C91_try_ok",
    "Helper.TestC.C91_execute",
    "Helper.TestC.C91_call",
    "Helper.TestC.C91_call_ok",
    "Helper.TestC.C91_testClass",
    "Helper.TestC.C91_evaluate",
    "Helper.TestC.C91_evaluate_throws",
    "Helper.TestC.C91_assign",
    "Helper.TestC.C91_assign_throws",
    "Helper.TestC.C91_declare_partial",
    "Helper.TestC.C91_declare_throws_partial",
    "Helper.TestC.C91_throws_none",
    "Helper.TestC.C91_throws_expected",
    "Helper.TestC.C91_throws_other",
    "Helper.TestC.C91_fail_none",
    "Helper.TestC.C91_fail_thrown",
    "Helper.TestC.C91_values_refuted"
   ],
   "note": "False: the expressions are evaluated again for each message, so that it may show values that were not compared (C91_values_refuted). The exact texts are proved for expressions that keep their value, and without restriction for the macros that evaluate once. HELPER_TEST_LESS calls itself an equality, HELPER_TEST_THROWS and HELPER_TEST_FAIL do not name the statement, HELPER_TEST_DECLARE joins the class and the variable without a space."
  },
  {
   "property": "C92",
   "status": "partial",
   "theorems": [
    "Helper.MText.C92_assert",
    "Helper.MText.C92_precondition",
    "Helper.MText.C92_debugPrecondition",
    "Helper.MText.C92_throw_partial",
    "Helper.MText.C92_msg_partial",
    "Helper.MText.C92_tests",
    "Helper.MText.C92_illFormed",
    "Helper.MText.C92_cond_types",
    "Helper.MText.C92_stream_true",
    "Helper.MText.C92_refuted"
   ],
   "note": "False for messages with operators weaker than <<: of a conditional, && or || only the part before the operator is shown (C92_tests, C92_refuted), with a comparison or a bitwise operator the macro does not compile (C92_illFormed). Proved for messages made of parts separated by << (C92_msg_partial), and without restriction for the macros without a message."
  },
  {
   "property": "C93",
   "status": "partial",
   "theorems": [
    "Helper.MText.C93_grammar",
    "Helper.MText.C93_productions",
    "Helper.MText.C93_equal_cond",
    "Helper.MText.C93_unit_iff",
    "Helper.MText.C93_within_iff",
    "Helper.MText.C93_tolerance_iff",
    "Helper.MText.C93_within_refuted",
    "Helper.MText.C93_equal_partial",
    "Helper.MText.C93_equal_shifts",
    "Helper.MText.C93_equal_first",
    "Helper.MText.C93_equal_second",
    "Helper.MText.C93_equal_refuted",
    "Helper.MText.C93_note_partial",
    "Helper.MText.C93_title_partial",
    "Helper.MText.C93_note_weak"
   ],
   "note": "False: HELPER_ASSERT_EQUAL(1<<2,5) shows 12 != 5, HELPER_TEST_WITHIN(7,2+3,t) computes 7-2+3. Exactly which arguments are taken as units is proved (C93_unit_iff and its uses); HELPER_ASSERT_EQUAL and the diagnostic macros do not compile with weaker operators in an argument that is followed by <<."
  },
  {
   "property": "C94",
   "status": "partial",
   "theorems": [
    "Helper.TestC.C94_failures",
    "Helper.TestC.C94_passes_iff",
    "Helper.TestC.C94_refuted"
   ],
   "note": "False if the vector of expected elements is shorter than the expected number says: the macro then reads beyond its end (C94_refuted). Exact number of failures otherwise."
  },
  {
   "property": "C95",
   "status": "partial",
   "theorems": [
    "Helper.TestC.C95_defined_iff",
    "Helper.TestC.C95_result_partial",
    "Helper.TestC.C95_again_partial",
    "Helper.TestC.C95_refuted"
   ],
   "note": "False for a vector with the same pointer at two places, whose object is deleted twice (C95_refuted). C95_defined_iff says exactly when the macro is defined."
  },
  {
   "property": "C96",
   "status": "partial",
   "theorems": [
    "Helper.Stmts.C96_reading",
    "Helper.Stmts.C96_compiles_iff",
    "Helper.Stmts.C96_meaning_partial",
    "Helper.Stmts.C96_calls_partial",
    "Helper.Stmts.C96_else_refuted",
    "Helper.Stmts.C96_two_refuted",
    "Helper.Stmts.C96_once_if_refuted",
    "Helper.Stmts.C96_once_if_silent",
    "Helper.Stmts.C96_once_else_taken",
    "Helper.Stmts.C96_construct_if_refuted",
    "Helper.Stmts.C96_declare_if_refuted",
    "Helper.Stmts.C96_construct_else_refuted",
    "Helper.Stmts.C96_scopes"
   ],
   "note": "False: if(c) HELPER_WARN(m); else f(); does not compile (C96_else_refuted), two macros that print once do not fit in one block (C96_two_refuted), and one that is the branch of an if does not compile (C96_once_if_refuted) or, after another one in the same block, compiles but never prints (C96_once_if_silent) and takes the else branch whatever the condition is (C96_once_else_taken). HELPER_TEST_CONSTRUCT and HELPER_TEST_DECLARE after if(c) construct their variable whatever c is, and do not compile with else. Exactly which of the other programs compile is proved (C96_compiles_iff), and that these do what they should."
  },
  {
   "property": "C97",
   "status": "partial",
   "theorems": [
    "Helper.Names.C97_clean_partial",
    "Helper.Names.C97_self_refuted",
    "Helper.Names.C97_auto_refuted",
    "Helper.Names.C97_within_refuted",
    "Helper.Names.C97_result_refuted",
    "Helper.Names.C97_stream_refuted",
    "Helper.Names.C97_notStream",
    "Helper.Names.C97_ss_refuted",
    "Helper.Names.C97_message_refuted",
    "Helper.Names.C97_predicate_refuted",
    "Helper.Names.C97_streamName_refuted",
    "Helper.Names.C97_and_partial",
    "Helper.Names.C97_grid_partial",
    "Helper.Names.C97_grid_refuted",
    "Helper.Names.C97_vector_partial",
    "Helper.Names.C97_vector_refuted"
   ],
   "note": "False for arguments with the names that the macros declare: HELPER_TEST_WITHIN(a,b,error) and HELPER_TEST_RESULT_COMPARE(T,a,==,result) pass for all values, HELPER_DEBUG_PRECONDITION(result) and the like read an uninitialised variable, HELPER_THROW(E,f,ss.str()) shows the beginning of its own message, HELPER_CLEAN_TEST_VECTOR(vs[i]) runs along the diagonal. Proved for all macros and arguments without these names (C97_clean_partial and those for the two loops)."
  },
  {
   "property": "C98",
   "status": "partial",
   "theorems": [
    "Helper.Using.C98_direct_partial",
    "Helper.Using.C98_implicit_partial",
    "Helper.Using.C98_explicit_refuted",
    "Helper.Using.C98_trait_refuted",
    "Helper.Using.C98_copy_partial",
    "Helper.Using.C98_copy_refuted",
    "Helper.Using.C98_derived_refuted",
    "Helper.Using.C98_members_refuted",
    "Helper.Using.C98_viable",
    "Helper.Using.C98_redundant"
   ],
   "note": "False: the unconstrained forwarding template is the better match for objects of the class that are not const and for objects of derived classes, so that their members are not copied (C98_copy_refuted, C98_derived_refuted); it makes explicit constructors of the base implicit (C98_explicit_refuted) and the traits true for all types (C98_trait_refuted). The other two templates change nothing (C98_redundant). Direct initialisation from other arguments, and copies of const objects and moves, are as they should be."
  },
  {
   "property": "C99",
   "status": "partial",
   "theorems": [
    "Helper.Tests.C99_lru",
    "Helper.Tests.C99_lru_wrong",
    "Helper.Tests.C99_labels",
    "Helper.Tests.C99_container",
    "Helper.Tests.C99_array",
    "Helper.Tests.C99_lazy",
    "Helper.Tests.C99_stopwatch_partial",
    "Helper.Tests.C99_stopwatch_refuted",
    "Helper.Tests.C99_randomiser",
    "Helper.Tests.C99_trace_partial",
    "Helper.Tests.C99_trace_refuted",
    "Helper.Tests.C99_exceptions"
   ],
   "note": "The tests of LRUCache, containers, arrays, Lazy and randomisers pass. False for the stopwatch: the test fails if the clock moves by the ten milliseconds of the sleep and less than one microsecond more, since it asks for more than 10000 truncated microseconds (C99_stopwatch_refuted); and for stack traces with a frame without name (undefined) or without memory (abort) (C99_trace_refuted)."
  },
  {
   "property": "C100",
   "status": "partial",
   "theorems": [
    "Helper.Seq.C100_read",
    "Helper.Seq.C100_roundTrip",
    "Helper.Seq.C100_vector",
    "Helper.Seq.C100_plus_partial",
    "Helper.Seq.C100_negative_refuted"
   ],
   "note": "False for negative numbers: is >> x for an unsigned type takes a minus sign and read_sequence does not look for it, so that [-1] is read as [max] without an error (C100_negative_refuted). What is accepted and stored is proved for every input (C100_read); without a minus sign in the input the property holds (C100_plus_partial); the round trip holds without restriction."
  },
  {
   "property": "C101",
   "status": "partial",
   "theorems": [
    "Helper.Handle.Threads.C101_noRace_partial",
    "Helper.Handle.Threads.C101_values_partial",
    "Helper.Handle.Threads.C101_freed_partial",
    "Helper.Handle.Threads.C101_alone_partial",
    "Helper.Handle.Threads.C101_finish_partial",
    "Helper.Handle.Threads.C101_extract_refuted"
   ],
   "note": "False for the non-const dynamic_handle_extract, which gives access to the shared object without cloning it: the change races with every access of another thread, which then reads the new value (C101_extract_refuted). Proved for all programs without it; the clone that make_unique always makes (C56) is what makes this hold."
  },
  {
   "property": "C102",
   "status": "partial",
   "theorems": [
    "Helper.Double.C102_nearest",
    "Helper.Double.C102_exact",
    "Helper.Double.C102_even",
    "Helper.Double.C102_error",
    "Helper.Double.C102_mono",
    "Helper.Double.C102_once_partial",
    "Helper.Double.C102_ratio_partial",
    "Helper.Double.C102_order",
    "Helper.Double.C102_sign",
    "Helper.Double.C102_distinct_partial",
    "Helper.Double.C102_bound",
    "Helper.Double.C102_elapsed_partial",
    "Helper.Double.C102_clicks",
    "Helper.Double.C102_twice_refuted"
   ],
   "note": "False beyond 2^53 units (104 days in nanoseconds, 285 years in microseconds): the count is rounded to double before the division, so that the result is not the nearest double and different readings coincide (C102_twice_refuted). Proved up to 2^53 units (nearest) and 2^52 units (distinct); order and sign, and an error of at most about 2^-52 times the value, without restriction. The first five theorems say that the model of rounding is IEEE rounding to nearest even."
  },
  {
   "property": "C103",
   "status": "partial",
   "theorems": [
    "Helper.Macro.Threads.C103_perThread",
    "Helper.Macro.Threads.C103_notLost",
    "Helper.Macro.Threads.C103_first_partial",
    "Helper.Macro.Threads.C103_all_refuted"
   ],
   "note": "False: the variable first_time is neither atomic nor locked; if all threads read it before one has cleared it, each prints the message, and any two threads that come to the call site race (C103_all_refuted). Each thread prints at most once (C103_perThread), the message is never lost (C103_notLost), and it is printed once if the first visit is over before others begin (C103_first_partial)."
  },
  {
   "property": "C104",
   "status": "partial",
   "theorems": [
    "Helper.Randomiser.Threads.C104_serial_partial",
    "Helper.Randomiser.Threads.C104_bounds",
    "Helper.Randomiser.Threads.C104_overlap_refuted"
   ],
   "note": "False: the engine is shared and not protected; two threads that read it before one has written it get the same value, and a late thread sets the engine back (C104_overlap_refuted). Holds for calls that do not overlap (C104_serial_partial); the bounds hold for every schedule in which the engine is read and written as a whole (C104_bounds)."
  },
  {
   "property": "C105",
   "status": "partial",
   "theorems": [
    "Helper.Arith.C105_comm",
    "Helper.Arith.C105_assoc",
    "Helper.Arith.C105_closed",
    "Helper.Arith.C105_exists",
    "Helper.Arith.C105_inplace",
    "Helper.Arith.C105_conv",
    "Helper.Arith.C105_values_partial",
    "Helper.Arith.C105_float_partial",
    "Helper.Arith.C105_double",
    "Helper.Arith.C105_less_partial",
    "Helper.Arith.C105_sum_partial",
    "Helper.Arith.C105_product_partial",
    "Helper.Arith.C105_small",
    "Helper.Arith.C105_refuted"
   ],
   "note": "The statements about types hold on every platform. False for values: int with unsigned loses the negative ones, int with float those of more than 24 bits, and the product of two unsigned shorts is undefined (C105_refuted). Exactly when values are kept is proved (C105_values_partial, C105_float_partial, C105_double); sums and products of small types are right."
  },
  {
   "property": "C106",
   "status": "partial",
   "theorems": [
    "Helper.Meta.Operators.C106_references_partial",
    "Helper.Meta.Operators.C106_const_partial",
    "Helper.Meta.Operators.C106_refuted"
   ],
   "note": "False: the concept applies the operator to variables, the alias to rvalues, so that overloads that take only one of them, operands by value of move-only classes and ambiguities make a difference (C106_refuted). Holds for lvalue references as arguments, and for overloads that take const references or copies."
  },
  {
   "property": "C107",
   "status": "partial",
   "theorems": [
    "Helper.Iter.C107_each",
    "Helper.Iter.C107_back",
    "Helper.Iter.C107_forward",
    "Helper.Iter.C107_lowerBound",
    "Helper.Iter.C107_arrow",
    "Helper.Iter.C107_forward_operators",
    "Helper.Iter.C107_random_refuted"
   ],
   "note": "False for the operators: the random access facade declares random_access_iterator_tag but has no a++, a--, n+a and a[n] (C107_random_refuted); the forward facade has all it needs. Loops and the binary search are proved without restriction."
  },
  {
   "property": "C108",
   "status": "proved",
   "theorems": [
    "Helper.LRU.C108_value",
    "Helper.LRU.C108_hit",
    "Helper.LRU.C108_inclusion",
    "Helper.LRU.C108_once",
    "Helper.LRU.C108_competitive",
    "Helper.LRU.C108_none",
    "Helper.LRU.C108_strategy"
   ],
   "note": "For labels compared by a strict weak order: an access may give f of an equivalent label accessed before (C108_value), which is f(label) if f respects the equivalence."
  },
  {
   "property": "C109",
   "status": "proved",
   "theorems": [
    "Helper.LRU.C109_values",
    "Helper.LRU.C109_others",
    "Helper.LRU.C109_refs"
   ],
   "note": "A moved-from std::map is taken to be empty."
  },
  {
   "property": "C110",
   "status": "partial",
   "theorems": [
    "Helper.Handle.C110_actual",
    "Helper.Handle.C110_faithful_partial",
    "Helper.Handle.C110_faithful_iff",
    "Helper.Handle.C110_part",
    "Helper.Handle.C110_refuted",
    "Helper.Handle.C110_compiles",
    "Helper.Handle.C110_makeHandle_partial",
    "Helper.Handle.C110_makeHandle_iff",
    "Helper.Handle.C110_makeHandle_refuted"
   ],
   "note": "False: the templates of handle.hpp:73-75 copy an object as one of its static class, which slices an object of a further derived class; and make_handle (line 120) passes rvalue arguments on as lvalues. The object held is given in all cases, as are the exact conditions under which it is a copy of the whole."
  },
  {
   "property": "C111",
   "status": "partial",
   "theorems": [
    "Helper.Handle.Delete.C111_virtual_partial",
    "Helper.Handle.Delete.C111_const_partial",
    "Helper.Handle.Delete.C111_nonvirtual_refuted",
    "Helper.Handle.Delete.C111_raw_refuted",
    "Helper.Handle.Delete.C111_once",
    "Helper.Handle.Delete.C111_raw_actual"
   ],
   "note": "False if the interface has no virtual destructor, as make_unique (handle.hpp:109) deletes the clone through a pointer to the interface, and if the pointer returned by pointer() is given to another handle (line 69). Proved otherwise; in the second case every history that destroys all handles is shown to be undefined."
  },
  {
   "property": "C112",
   "status": "partial",
   "theorems": [
    "Helper.Handle.C112_extract_partial",
    "Helper.Handle.C112_cast_partial",
    "Helper.Handle.C112_failed",
    "Helper.Handle.C112_thrown",
    "Helper.Handle.C112_refuted"
   ],
   "note": "False: the static type written is that of a pointer to the interface (typeid(i), handle.hpp:141, 152, 167), and an exception of _write replaces std::bad_cast. The text is proved exactly when _write behaves; the other cases are given too."
  },
  {
   "property": "C113",
   "status": "partial",
   "theorems": [
    "Helper.Seq.C113_ints_partial",
    "Helper.Seq.C113_comma_refuted",
    "Helper.Seq.C113_comma_partial",
    "Helper.Seq.C113_misread",
    "Helper.Seq.C113_leading",
    "Helper.Seq.C113_refuted"
   ],
   "note": "False: in a locale that groups digits with commas a list of two or more integers is never read back (it may silently become another list), as the separator of the list is a comma too (stlio.hpp:147). Proved for all other separators that are no digits, signs or delimiters, and for at most one integer. For groups of equal size the lists misread, and as what, are characterised."
  },
  {
   "property": "C114",
   "status": "partial",
   "theorems": [
    "Helper.MText.Args.C114_args_partial",
    "Helper.MText.Args.C114_reject",
    "Helper.MText.Args.C114_variadic",
    "Helper.MText.Args.C114_which",
    "Helper.MText.Args.C114_arity",
    "Helper.MText.Args.C114_text",
    "Helper.MText.Args.C114_throw",
    "Helper.MText.Args.C114_throw_str",
    "Helper.MText.Args.C114_quoted",
    "Helper.MText.Args.C114_refuted"
   ],
   "note": "False: a comma within angle brackets or braces separates arguments, so HELPER_ASSERT(std::is_same<int,int>::value) is ill-formed; only the four macros with ... (test.hpp:515-566) accept such texts. Proved: arguments whose commas are within parentheses arrive as written, all others with matching parentheses are rejected, the macros with ... take all, and #parameter always shows what was written."
  },
  {
   "property": "C115",
   "status": "partial",
   "theorems": [
    "Helper.BinWord.C115_readBack_partial",
    "Helper.BinWord.C115_grammar",
    "Helper.BinWord.C115_same",
    "Helper.BinWord.C115_other",
    "Helper.BinWord.C115_refuted"
   ],
   "note": "False: writing a non-empty word leaves boolalpha set (binary_word.hpp:233-236), so a list written before it as [1] is then expected to be [true] and reading throws. Proved for non-empty words: reading back succeeds unless boolalpha was off and a non-empty list was written before the first word, and throws in that case. (Empty words are not read back at all, see C15.) Which lists are read with boolalpha set is proved too."
  },
  {
   "property": "C116",
   "status": "partial",
   "theorems": [
    "Helper.Link.C116_links_partial",
    "Helper.Link.C116_refuted",
    "Helper.Link.C116_others_partial",
    "Helper.Link.C116_unit",
    "Helper.Link.C116_engines",
    "Helper.Link.C116_oneDefinition"
   ],
   "note": "test.hpp defines four variables with external linkage and randomiser.hpp a static engine that a member template names: at most one unit of a program can include each of them (exact condition proved); there is one engine per unit"
  },
  {
   "property": "C117",
   "status": "partial",
   "theorems": [
    "Helper.Link.C117_order_partial",
    "Helper.Link.C117_refuted",
    "Helper.Link.C117_others_partial",
    "Helper.Link.C117_depth"
   ],
   "note": "writable.hpp and variant.inl.hpp need std::ostream and abort from headers included earlier, binary_word.hpp names a type declared nowhere; the exact condition on the list of headers is proved"
  },
  {
   "property": "C118",
   "status": "partial",
   "theorems": [
    "Helper.Shared.Threads.C118_exclusive_partial",
    "Helper.Shared.Threads.C118_locked_partial",
    "Helper.Shared.Threads.C118_separate_partial",
    "Helper.Shared.Threads.C118_copies_partial",
    "Helper.Shared.Threads.C118_refuted",
    "Helper.Shared.Threads.C118_leak_refuted",
    "Helper.Shared.Threads.C118_atomic_refuted",
    "Helper.Shared.Threads.C118_freed"
   ],
   "note": "The counter is a plain size_t: two threads can lose an increment (use after free) or a decrement (leak), and since the decrement and the test for zero are separate, an atomic counter would still allow a double free. Proved for threads that do not use the same counter at the same time (by a lock, or because they share no buffer), and for threads that do not assign, whose counters never exceed the number of arrays"
  },
  {
   "property": "C119",
   "status": "partial",
   "theorems": [
    "Helper.Seq.C119_chars_partial",
    "Helper.Seq.C119_chars_only",
    "Helper.Seq.C119_refuted",
    "Helper.Seq.C119_strings_refuted",
    "Helper.Seq.C119_strings_throw"
   ],
   "note": "False: blanks are skipped by the reader, a vector that begins with a closing bracket is read as empty, and strings swallow separators and brackets. Proved: vectors of characters are read back exactly if they hold no blank and do not begin with a closing bracket; no vector of strings but the empty one is ever read back"
  },
  {
   "property": "C120",
   "status": "partial",
   "theorems": [
    "Helper.Double.C120_read",
    "Helper.Double.C120_nearest",
    "Helper.Double.C120_error",
    "Helper.Double.C120_few",
    "Helper.Double.C120_stable",
    "Helper.Double.C120_many",
    "Helper.Double.C120_seventeen_partial",
    "Helper.Double.C120_default_partial",
    "Helper.Double.C120_refuted",
    "Helper.Double.C120_sixteen_refuted",
    "Helper.Double.C120_comma_refuted",
    "Helper.Double.C120_numerals",
    "Helper.Double.C120_noNumber"
   ],
   "note": "False with the default precision (C120_refuted) and with 16 digits (C120_sixteen_refuted), and with a comma as decimal point (C120_comma_refuted). Proved for precision 17 or more, and for precision up to 15 for exactly the elements nearest to a decimal number of that many digits (C120_few, C120_default_partial); what is read in general is C120_read with C120_nearest and C120_error, and for numbers written in any other way C120_numerals. Exponent bounds, infinities, NaN and the sign of zero are in C129."
  },
  {
   "property": "C121",
   "status": "partial",
   "theorems": [
    "Helper.LRU.Threads.C121_locked_partial",
    "Helper.LRU.Threads.C121_values",
    "Helper.LRU.Threads.C121_race_refuted",
    "Helper.LRU.Threads.C121_readers",
    "Helper.LRU.Threads.C121_noGet_partial",
    "Helper.LRU.Threads.C121_refuted",
    "Helper.LRU.Threads.C121_age_refuted",
    "Helper.LRU.Threads.C121_every_capacity_refuted"
   ],
   "note": "False: get changes the ages of other elements, so that two threads that both find what they look up have a data race, and can leave two elements of the age 0; then a later put erases end(). Proved: the answers of get and has_label are right whatever the schedule, calls that do not overlap behave as if made one after another, and there is no race without get"
  },
  {
   "property": "C122",
   "status": "partial",
   "theorems": [
    "Helper.Handle.Throw.C122_throw_partial",
    "Helper.Handle.Throw.C122_history_partial",
    "Helper.Handle.Throw.C122_noLeak",
    "Helper.Handle.Throw.C122_const_partial",
    "Helper.Handle.Throw.C122_faultless",
    "Helper.Handle.Throw.C122_moved",
    "Helper.Handle.Throw.C122_moved_refuted",
    "Helper.Handle.Throw.C122_nonvirtual_refuted"
   ],
   "note": "False for the argument of a constructor that moves (handle.hpp:71, 73): it has been moved from before the control block is allocated. False without a virtual destructor, as the clone is deleted through a pointer to the interface. Proved otherwise; which arguments are changed is characterised exactly."
  },
  {
   "property": "C123",
   "status": "partial",
   "theorems": [
    "Helper.Lazy.Busy.C123_ownership",
    "Helper.Lazy.Busy.C123_noLeak",
    "Helper.Lazy.Busy.C123_made",
    "Helper.Lazy.Busy.C123_stays",
    "Helper.Lazy.Busy.C123_copy",
    "Helper.Lazy.Busy.C123_change_refuted"
   ],
   "note": "Ownership and stability hold whatever factories do; a factory that changes the variable being evaluated is undefined"
  },
  {
   "property": "C124",
   "status": "partial",
   "theorems": [
    "Helper.ListC.Changing.C124_elementwise",
    "Helper.ListC.Changing.C124_length",
    "Helper.ListC.Changing.C124_apply_partial",
    "Helper.ListC.Changing.C124_assign",
    "Helper.ListC.Changing.C124_two",
    "Helper.ListC.Changing.C124_apply_refuted",
    "Helper.ListC.Changing.C124_shrink_refuted",
    "Helper.ListC.Changing.C124_append_refuted",
    "Helper.ListC.Changing.C124_two_refuted"
   ],
   "note": "Assigning to elements is fine; functions that change the size make apply undefined, and elementwise undefined or endless"
  },
  {
   "property": "C125",
   "status": "partial",
   "theorems": [
    "Helper.Handle.Const.C125_overloads",
    "Helper.Handle.Const.C125_const_partial",
    "Helper.Handle.Const.C125_assign",
    "Helper.Handle.Const.C125_constVar",
    "Helper.Handle.Const.C125_extract_refuted",
    "Helper.Handle.Const.C125_reference_refuted"
   ],
   "note": "Holds for const variables and for references from accessors used at once; dynamic_handle_extract of a non-const Handle<const I> returns a non-const reference"
  },
  {
   "property": "C126",
   "status": "partial",
   "theorems": [
    "Helper.Lifetime.C126_kept_partial",
    "Helper.Lifetime.C126_later",
    "Helper.Lifetime.C126_follows",
    "Helper.Lifetime.C126_scope",
    "Helper.Lifetime.C126_during",
    "Helper.Lifetime.C126_calls",
    "Helper.Lifetime.C126_modified",
    "Helper.Lifetime.C126_cstr_refuted",
    "Helper.Lifetime.C126_get_refuted",
    "Helper.Lifetime.C126_tie_refuted",
    "Helper.Lifetime.C126_accept_refuted"
   ],
   "note": "False for c_str of anything but a String, for get_first of a value, for make_lpair of a value of const class type and for accept with a visitor that returns its argument. Proved for exactly the other calls"
  },
  {
   "property": "C127",
   "status": "partial",
   "theorems": [
    "Helper.Wf.C127_needs",
    "Helper.Wf.C127_ordinary_partial",
    "Helper.Wf.C127_one_partial",
    "Helper.Wf.C127_refuted",
    "Helper.Wf.C127_moveOnly",
    "Helper.Wf.C127_noDefault",
    "Helper.Wf.C127_calls",
    "Helper.Wf.C127_own",
    "Helper.Wf.C127_unsigned_refuted",
    "Helper.Wf.C127_makeListArray"
   ],
   "note": "False for five functions: LinkedList(n,t), append and concatenate of LinkedLists, apply on a Set and make_list of an Array; and for make_array of an unsigned int (C127_unsigned_refuted). For all others the exact needs are proved, for element types that are classes other than the containers; printing copies the elements, except for std::list"
  },
  {
   "property": "C128",
   "status": "partial",
   "theorems": [
    "Helper.Randomiser.Statics.C128_order_partial",
    "Helper.Randomiser.Statics.C128_one",
    "Helper.Randomiser.Statics.C128_main",
    "Helper.Randomiser.Statics.C128_progress",
    "Helper.Randomiser.Statics.C128_refuted",
    "Helper.Randomiser.Statics.C128_third_refuted"
   ],
   "note": "False with two units that use the same type of randomiser: the version of get() kept by the linker can use a generator that is not initialised yet. Proved for one unit, and for exactly the programs in which each initialiser uses the version of its own unit; from main on every use works"
  },
  {
   "property": "C129",
   "status": "partial",
   "theorems": [
    "Helper.Double.C129_nearest",
    "Helper.Double.C129_grid",
    "Helper.Double.C129_limit",
    "Helper.Double.C129_read",
    "Helper.Double.C129_unreadable",
    "Helper.Double.C129_finite_partial",
    "Helper.Double.C129_infinite",
    "Helper.Double.C129_largest",
    "Helper.Double.C129_precisions",
    "Helper.Double.C129_infinite_refuted",
    "Helper.Double.C129_refuted",
    "Helper.Double.C129_field",
    "Helper.Double.C129_notGood",
    "Helper.Double.C129_end",
    "Helper.Double.C129_numerals"
   ],
   "note": "False for infinities and NaN, which are written but not read (C129_infinite), and for the largest numbers with exactly the precisions 0-5, 10, 11, 15 and 16 (C129_precisions). Proved for all finite values with 17 digits or more, with the sign of zero; what is read in general is C129_read. num_put and num_get are as in libstdc++; libc++ differs for inf, nan and ERANGE"
  },
  {
   "property": "C130",
   "status": "partial",
   "theorems": [
    "Helper.LRU.Recursive.C130_value_partial",
    "Helper.LRU.Recursive.C130_once_partial",
    "Helper.LRU.Recursive.C130_fibonacci",
    "Helper.LRU.Recursive.C130_fibonacci_refs",
    "Helper.LRU.Recursive.C130_refs_refuted",
    "Helper.LRU.Recursive.C130_one",
    "Helper.LRU.Recursive.C130_exponential",
    "Helper.LRU.Recursive.C130_three_partial",
    "Helper.LRU.Recursive.C130_linear",
    "Helper.LRU.Recursive.C130_three_refuted",
    "Helper.LRU.Recursive.C130_refuted"
   ],
   "note": "False: a reference held across a recursive call can dangle (C130_refs_refuted: Fibonacci numbers, capacity 2; C130_three_refuted: capacity 3 after other calls), and with a small cache values are computed again (C130_refuted; with capacity 1 exponentially often, C130_one). Proved: right values for every capacity if results are copied before the next call; references stay valid and each value is computed once if there is room for all arguments; for the Fibonacci numbers three elements are enough for one call from an empty cache, whatever the argument. Recursions are given as programs that terminate (rank) and catch no exceptions"
  },
  {
   "property": "C131",
   "status": "partial",
   "theorems": [
    "Helper.Handle.Hierarchy.C131_dynamic",
    "Helper.Handle.Hierarchy.C131_up",
    "Helper.Handle.Hierarchy.C131_object",
    "Helper.Handle.Hierarchy.C131_regular_partial",
    "Helper.Handle.Hierarchy.C131_back_partial",
    "Helper.Handle.Hierarchy.C131_compiles",
    "Helper.Handle.Hierarchy.C131_extract",
    "Helper.Handle.Hierarchy.C131_redundant",
    "Helper.Handle.Hierarchy.C131_wrapper",
    "Helper.Handle.Hierarchy.C131_needed",
    "Helper.Handle.Hierarchy.C131_back_refuted",
    "Helper.Handle.Hierarchy.C131_private_refuted",
    "Helper.Handle.Hierarchy.C131_illFormed_refuted",
    "Helper.Handle.Hierarchy.C131_extract_refuted"
   ],
   "note": "False: if the interface is repeated in the object, the cast to another class and back can lead to another subobject (C131_back_refuted), a private base can be reached (C131_private_refuted), and dynamic_handle_extract does not compile for the interface and its bases (C131_extract_refuted, exactly these: C131_compiles). Proved: what casts return in every hierarchy, the way back if the interface occurs once and is public in the other class, and that the T of a Wrapper<T,I> is always found. dynamic_cast is as in the standard, for code outside of the classes"
  },
  {
   "property": "C132",
   "status": "partial",
   "theorems": [
    "Helper.Variant.C132_compiles",
    "Helper.Variant.C132_exact",
    "Helper.Variant.C132_holds",
    "Helper.Variant.C132_iff",
    "Helper.Variant.C132_same",
    "Helper.Variant.C132_refuted",
    "Helper.Variant.C58_refuted"
   ],
   "note": "False: a code that is a value of the promoted code type only (300 for char) compiles and is lost (C58_refuted, exactly these codes: C132_iff), and visitors with results of two types do not compile (C132_refuted; the exact condition is C132_compiles). Proved: where a variant leads for codes of all types, that holds_alternative compares the values of the codes in spite of the conversions, and that everything is right for codes of the code type"
  },
  {
   "property": "C133",
   "status": "partial",
   "theorems": [
    "Helper.Seq.Format.C133_outcome",
    "Helper.Seq.Format.C133_iff_partial",
    "Helper.Seq.Format.C133_same_partial",
    "Helper.Seq.Format.C133_shown_partial",
    "Helper.Seq.Format.C133_negative_refuted",
    "Helper.Seq.Format.C133_misread_refuted",
    "Helper.Seq.Format.C133_refuted",
    "Helper.Seq.Format.C133_width_partial",
    "Helper.Seq.Format.C133_fill_refuted",
    "Helper.Seq.Format.C133_default_text",
    "Helper.Seq.Format.C133_default_reader",
    "Helper.Seq.Format.C133_letters",
    "Helper.Seq.Format.C133_unsigned_refuted"
   ],
   "note": "False: negative numbers written in octal or hexadecimal are never read back, reading throws (C133_negative_refuted); after a width with a fill character that is not blank reading throws (C133_fill_refuted). Proved: what is read for all flags of the writer and bases of the reader (C133_outcome), exactly when this is what was written (C133_iff_partial), and the case of equal flags. num_put and num_get are as in libstdc++, for right-adjusted output and skipws"
  },
  {
   "property": "C134",
   "status": "partial",
   "theorems": [
    "Helper.Seq.Mask.C134_lists",
    "Helper.Seq.Mask.C134_words",
    "Helper.Seq.Mask.C134_roundTrip_partial",
    "Helper.Seq.Mask.C134_left",
    "Helper.Seq.Mask.C134_notGood",
    "Helper.Seq.Mask.C134_defined",
    "Helper.Seq.Mask.C134_defined_refuted",
    "Helper.Seq.Mask.C134_word",
    "Helper.Seq.Mask.C134_word_partial",
    "Helper.Seq.Mask.C134_word_blank",
    "Helper.Seq.Mask.C134_word_refuted",
    "Helper.Seq.Mask.C134_refuted",
    "Helper.Seq.Mask.C134_same",
    "Helper.Seq.Mask.C134_contents",
    "Helper.Seq.Mask.C134_sameWord"
   ],
   "note": "False for words: with eofbit or failbit in the mask, reading a word that ends the text throws, though all of it has been read (C134_refuted, exactly these: C134_word_partial). Proved for lists, also of words: everything is read as without a mask, and the undefined behaviour on blank input (C21) becomes an exception if eofbit or failbit are in the mask"
  },
  {
   "property": "C135",
   "status": "proved",
   "theorems": [
    "Helper.Seq.C135_lists",
    "Helper.Seq.C135_word",
    "Helper.Seq.C135_words",
    "Helper.Seq.C135_ofString",
    "Helper.Seq.C135_items",
    "Helper.Seq.C135_masked"
   ],
   "note": "Streams are finite texts; on a stream that never ends (a terminal) reading can go on for as long as separators come"
  },
  {
   "property": "C136",
   "status": "partial",
   "theorems": [
    "Helper.Seq.Raw.C136_lists",
    "Helper.Seq.Raw.C136_ints",
    "Helper.Seq.Raw.C136_bools",
    "Helper.Seq.Raw.C136_words",
    "Helper.Seq.Raw.C136_start",
    "Helper.Seq.Raw.C136_roundTrip",
    "Helper.Seq.Raw.C136_roundTripWords",
    "Helper.Seq.Raw.C136_chars",
    "Helper.Seq.Raw.C136_chars_refuted",
    "Helper.Seq.Raw.C136_word",
    "Helper.Seq.Raw.C136_word_stuck",
    "Helper.Seq.Raw.C136_refuted",
    "Helper.Seq.Raw.C136_lists_refuted"
   ],
   "note": "False for words one after the other: at a blank the reader of words yields empty words for ever and the stream stays good (C136_word_stuck, C136_refuted); and a vector of characters that begins with a closing bracket is read as empty (C136_chars_refuted). Proved for lists: the same is read if no blank is consumed, otherwise an exception is thrown, exactly; printed lists are read back, and vectors of characters also if there are blanks in them"
  },
  {
   "property": "C137",
   "status": "partial",
   "theorems": [
    "Helper.Keys.C137_orders",
    "Helper.Keys.C137_list",
    "Helper.Keys.C137_dictionary",
    "Helper.Keys.C137_pair",
    "Helper.Keys.C137_word",
    "Helper.Keys.C137_set",
    "Helper.Keys.C137_map",
    "Helper.Keys.C137_total",
    "Helper.Keys.C137_sets",
    "Helper.Keys.C137_maps",
    "Helper.Keys.C137_cache",
    "Helper.Keys.C137_refuted"
   ],
   "note": "False for element types whose operator< is no order, such as double with NaN, and for lists of them (C137_refuted); proved for everything that is made of ordered types"
  },
  {
   "property": "C138",
   "status": "partial",
   "theorems": [
    "Helper.Seq.Sink.C138_writers",
    "Helper.Seq.Sink.C138_prefix",
    "Helper.Seq.Sink.C138_fits",
    "Helper.Seq.Sink.C138_fails",
    "Helper.Seq.Sink.C138_flags",
    "Helper.Seq.Sink.C138_notGood",
    "Helper.Seq.Sink.C138_failbit",
    "Helper.Seq.Sink.C138_failbit_silent",
    "Helper.Seq.Sink.C138_failbit_last",
    "Helper.Seq.Sink.C138_raise",
    "Helper.Seq.Sink.C138_element",
    "Helper.Seq.Sink.C138_word",
    "Helper.Seq.Sink.C138_refuted"
   ],
   "note": "False for the flags: a word whose printing is interrupted by an exception leaves the stream with noboolalpha (C138_refuted; exactly then, C138_word). With only failbit in the mask an exception comes with the next operation that writes, or not at all (C138_failbit, C138_failbit_silent, C138_failbit_last)"
  },
  {
   "property": "C139",
   "status": "partial",
   "theorems": [
    "Helper.LRU.Idiom.C139_values",
    "Helper.LRU.Idiom.C139_few_partial",
    "Helper.LRU.Idiom.C139_locked_partial",
    "Helper.LRU.Idiom.C139_put_refuted",
    "Helper.LRU.Idiom.C139_get_refuted"
   ],
   "note": "False: two threads that access the same label can both miss, and the second put throws (C139_put_refuted, for every function and capacity); and in a cache of any capacity a label can be evicted between put and get (C139_get_refuted). What is returned is always right and nothing is undefined (C139_values). Proved if the three calls are made under one lock, and for labels of one thread only if there are no more labels than places"
  },
  {
   "property": "C140",
   "status": "proved",
   "theorems": [
    "Helper.Shared.C140_loop",
    "Helper.Shared.C140_life",
    "Helper.Shared.C140_store",
    "Helper.Shared.C140_dangles"
   ],
   "note": "As C33, for histories without destruction, which is undefined (C34)"
  },
  {
   "property": "C141",
   "status": "partial",
   "theorems": [
    "Helper.Seq.Adjust.C141_first",
    "Helper.Seq.Adjust.C141_iff_partial",
    "Helper.Seq.Adjust.C141_containers",
    "Helper.Seq.Adjust.C141_right",
    "Helper.Seq.Adjust.C141_vector_back",
    "Helper.Seq.Adjust.C141_word_right",
    "Helper.Seq.Adjust.C141_refuted",
    "Helper.Seq.Adjust.C141_word_left_refuted",
    "Helper.Seq.Adjust.C141_word_fill_refuted"
   ],
   "note": "False: the padding comes before or after the opening bracket (C141_first, C141_refuted), exactly when there is anything to pad (C141_iff_partial, C141_containers). With blanks, vectors of integers are read back all the same, and words without std::left; with std::left only the first letter of a word is read back, without an error (C141_word_left_refuted), and the fill character 0 becomes part of a word (C141_word_fill_refuted)"
  },
  {
   "property": "C142",
   "status": "proved",
   "theorems": [
    "Helper.Handle.Extract.C142_lifetime",
    "Helper.Handle.Extract.C142_extract",
    "Helper.Handle.Extract.C142_read"
   ],
   "note": "std::shared_ptr and its casts are as in the standard; clone, _copy and _move are as in C54. Bases are public and unambiguous (otherwise C131)"
  },
  {
   "property": "C143",
   "status": "partial",
   "theorems": [
    "Helper.Meta.ResultOf.C143_iff_partial",
    "Helper.Meta.ResultOf.C143_adjusted",
    "Helper.Meta.ResultOf.C143_void",
    "Helper.Meta.ResultOf.C143_const_refuted",
    "Helper.Meta.ResultOf.C143_function_refuted"
   ],
   "note": "False for functions F, for which ResultOf does not exist (C143_function_refuted), and for arguments that are const, arrays or functions, which are adjusted (C143_const_refuted, C143_adjusted); proved for the others, exactly (C143_iff_partial). volatile is not modelled"
  },
  {
   "property": "C144",
   "status": "partial",
   "theorems": [
    "Helper.Iter.PairIt.C144_iff_partial",
    "Helper.Iter.PairIt.C144_pointers_refuted",
    "Helper.Iter.PairIt.C144_classes_refuted"
   ],
   "note": "False: dereference makes a pair of the elements where a pair of pointers to the iterators is declared, so it compiles only if each element is converted to a pointer to its iterator (C144_iff_partial). With pointers as iterators that is so for nullptr_t and classes with such a conversion only (C144_pointers_refuted), and with iterators of classes not for numbers, nor for pointers to anything but iterators (C144_classes_refuted)"
  },
  {
   "property": "C145",
   "status": "partial",
   "theorems": [
    "Helper.Seq.Copies.C145_ok_partial",
    "Helper.Seq.Copies.C145_defined_partial",
    "Helper.Seq.Copies.C145_text",
    "Helper.Seq.Copies.C145_count",
    "Helper.Seq.Copies.C145_destroyed",
    "Helper.Seq.Copies.C145_thrown_partial",
    "Helper.Seq.Copies.C145_safe",
    "Helper.Seq.Copies.C145_prefix",
    "Helper.Seq.Copies.C145_none_partial",
    "Helper.Seq.Copies.C145_nested",
    "Helper.Seq.Copies.C145_writers",
    "Helper.Seq.Copies.C145_refuted",
    "Helper.Seq.Copies.C145_lost_refuted",
    "Helper.Seq.Copies.C145_shared_refuted"
   ],
   "note": "False: for(auto x : v) copies every element with all it contains, so an element is copied once for each such container around it (C145_count, C145_nested, C145_refuted); none are copied just in lists, pairs and tuples (C145_none_partial). A copy of an Array that throws loses elements (C145_lost_refuted, exactly when C145_thrown_partial says), and containers of SharedArrays cannot be printed, because the destructor of their copies is undefined (C145_shared_refuted, C145_defined_partial). Proved: when printing succeeds, that copies are destroyed in order, and what is on the stream when something throws. Brackets and separators do not throw (C138)"
  },
  {
   "property": "C146",
   "status": "partial",
   "theorems": [
    "Helper.Randomiser.Real.C146_between_partial",
    "Helper.Randomiser.Real.C146_mono",
    "Helper.Randomiser.Real.C146_excluded_iff",
    "Helper.Randomiser.Real.C146_excluded_partial",
    "Helper.Randomiser.Real.C146_min",
    "Helper.Randomiser.Real.C146_unit",
    "Helper.Randomiser.Real.C146_clip",
    "Helper.Randomiser.Real.C146_float",
    "Helper.Randomiser.Real.C146_draws_partial",
    "Helper.Randomiser.Real.C146_draws_excluded_partial",
    "Helper.Randomiser.Real.C146_words",
    "Helper.Randomiser.Real.C146_max_refuted",
    "Helper.Randomiser.Real.C146_float_refuted",
    "Helper.Randomiser.Real.C146_neighbours_refuted",
    "Helper.Randomiser.Real.C146_zero_refuted",
    "Helper.Randomiser.Real.C146_above_refuted"
   ],
   "note": "False: the sum is rounded, so UniformRealRandomiser<double>(1,2) can return 2 (C146_max_refuted, C146_float_refuted), and intervals of neighbours give the upper bound for about half of the words (C146_neighbours_refuted). Values stay in the closed interval if the library avoids a canonical number of 1 (C146_draws_partial); otherwise they can be above it (C146_above_refuted). The upper bound is excluded for intervals that contain zero and have a representable width (C146_draws_excluded_partial; C146_zero_refuted without the latter); C146_excluded_iff says exactly when. The algorithms of the distribution are those of libstdc++, with rounding to nearest and without bounds of the exponent"
  },
  {
   "property": "C147",
   "status": "partial",
   "theorems": [
    "Helper.Randomiser.Ints.C147_uniform",
    "Helper.Randomiser.Ints.C147_below",
    "Helper.Randomiser.Ints.C147_half",
    "Helper.Randomiser.Ints.C147_rounds",
    "Helper.Randomiser.Ints.C147_get",
    "Helper.Randomiser.Ints.C147_between",
    "Helper.Randomiser.Ints.C147_first_partial",
    "Helper.Randomiser.Ints.C147_each",
    "Helper.Randomiser.Ints.C147_full",
    "Helper.Randomiser.Ints.C147_pairs",
    "Helper.Randomiser.Ints.C147_contract",
    "Helper.Randomiser.Ints.C147_refuted"
   ],
   "note": "Every value is in the interval (C147_between), and each is given by equally many words (C147_each, C147_full) or pairs of words (C147_pairs). That get() returns is false for engines that go on giving words that are rejected (C147_refuted); for fewer than 2^32 values it returns exactly if some word is accepted (C147_first_partial), and at least half of all words are (C147_half). The algorithms are those of libstdc++ with a computation in 64 bits. char and bool, for which the distribution is not defined, are not modelled"
  },
  {
   "property": "C148",
   "status": "partial",
   "theorems": [
    "Helper.Randomiser.Seed.C148_width",
    "Helper.Randomiser.Seed.C148_seed_iff",
    "Helper.Randomiser.Seed.C148_device",
    "Helper.Randomiser.Seed.C148_time",
    "Helper.Randomiser.Seed.C148_words",
    "Helper.Randomiser.Seed.C148_iff_partial",
    "Helper.Randomiser.Seed.C148_default",
    "Helper.Randomiser.Seed.C148_refuted"
   ],
   "note": "Engines with different seeds differ in one of their first 624 words (C148_words), and at any time the numbers of the device give all seeds, each once (C148_device). False with a device that gives the same numbers in every run, which the standard allows: then the sum of the two clocks decides, and a run 4294.963002 s later has the same seed (C148_refuted, C148_time); C148_iff_partial says exactly when two generators agree. The engine is std::mt19937 as in the standard"
  },
  {
   "property": "C149",
   "status": "partial",
   "theorems": [
    "Helper.TestC.Within.C149_rounded",
    "Helper.TestC.Within.C149_close",
    "Helper.TestC.Within.C149_beyond",
    "Helper.TestC.Within.C149_exact_partial",
    "Helper.TestC.Within.C149_near_partial",
    "Helper.TestC.Within.C149_whole",
    "Helper.TestC.Within.C149_whole_close",
    "Helper.TestC.Within.C149_fraction_refuted",
    "Helper.TestC.Within.C149_int_partial",
    "Helper.TestC.Within.C149_unsigned_partial",
    "Helper.TestC.Within.C149_unsigned_refuted",
    "Helper.TestC.Within.C149_refuted",
    "Helper.TestC.Within.C149_abs_refuted",
    "Helper.TestC.Within.C149_finite",
    "Helper.TestC.Within.C149_values_partial",
    "Helper.TestC.Within.C149_infinity_refuted",
    "Helper.TestC.Within.C149_nan",
    "Helper.TestC.Within.C149_numbers",
    "Helper.TestC.Within.C149_small",
    "Helper.TestC.Within.C149_zero",
    "Helper.TestC.Within.C149_macro",
    "Helper.TestC.Within.C149_largest_refuted"
   ],
   "note": "With the overloads of std::abs the rounded distance is compared (C149_rounded): numbers within the tolerance pass (C149_close), numbers that pass are beyond it by a relative 2^-p at most (C149_beyond), and the check is exact for numbers within a factor of two of each other (C149_near_partial). False: 1 and -2^-60 pass for the tolerance 1 (C149_refuted). The macro calls abs without std:: and test.hpp includes <cstdlib> only, so a program without using namespace std gets int abs(int) from libraries that declare the other overloads in std alone: the fraction is dropped, and 0.75 and 0 are within 0.125 (C149_abs_refuted, C149_fraction_refuted; C149_whole says exactly what passes). On int the check is exact or undefined (C149_int_partial), on unsigned types exact if the distance is an int (C149_unsigned_partial) and wrong for distances that are multiples of 2^32 (C149_unsigned_refuted). For all values of a floating-point type, with infinities and NaN: values within the tolerance pass (C149_values_partial) except an infinity and itself, whose difference is a NaN (C149_infinity_refuted); no check with a NaN passes (C149_nan), and underflow makes no numbers equal (C149_zero, C149_small)"
  },
  {
   "property": "C150",
   "status": "partial",
   "theorems": [
    "Helper.Arith.C150_equal_iff",
    "Helper.Arith.C150_less_iff",
    "Helper.Arith.C150_same",
    "Helper.Arith.C150_partial",
    "Helper.Arith.C150_signed_iff",
    "Helper.Arith.C150_macros",
    "Helper.Arith.C150_check",
    "Helper.Arith.C150_refuted",
    "Helper.Arith.C150_size_refuted"
   ],
   "note": "False on every platform: -1 is equal to the largest unsigned number and less than none (C150_refuted), so that HELPER_TEST_LESS(-1, v.size()) fails (C150_size_refuted). Equal numbers always pass (C150_same); everything is right if the common type is signed or the numbers are not negative (C150_partial), and C150_signed_iff says when it is signed. C150_equal_iff and C150_less_iff give the results for all types and values, C150_macros what the macros make of them"
  },
  {
   "property": "C151",
   "status": "partial",
   "theorems": [
    "Helper.Iter.PairPrint.C151_string",
    "Helper.Iter.PairPrint.C151_address",
    "Helper.Iter.PairPrint.C151_defined_partial",
    "Helper.Iter.PairPrint.C151_addresses_partial",
    "Helper.Iter.PairPrint.C151_mixed_partial",
    "Helper.Iter.PairPrint.C151_text",
    "Helper.Iter.PairPrint.C151_copies_refuted",
    "Helper.Iter.PairPrint.C151_end_refuted",
    "Helper.Iter.PairPrint.C151_commas_refuted"
   ],
   "note": "False for pointers to characters, which are printed as strings: iterators at copies of a string print the same (C151_copies_refuted), two strings with commas can't be told apart (C151_commas_refuted), and the end of an array of characters is read beyond (C151_end_refuted). Printing is defined exactly if all pointers to characters point to strings (C151_defined_partial). Proved for pointers to other objects (C151_addresses_partial); with one pointer to characters the text tells the other address and the string (C151_mixed_partial)."
  }
 ]
}