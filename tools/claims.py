# Claims for the components after the LRU cache; executed by gen_manifest.py.
S = "Helper.Seq"
B = "Helper.BinWord"
c("C08", "proved", ns(B, "C08_lexicographic", "C08_irrefl", "C08_trans", "C08_trichotomy"))
c("C09", "proved", ns(B, "C09_isPrefix", "C09_refl", "C09_antisymm", "C09_trans"))
c("C10", "proved", ns(B, "C10_isSubword"))
c("C11", "partial", ns(B, "C11_general", "C11_erasePrefix_partial", "C11_refuted"),
  "False for words of 2^31 bits and more: size() is converted to int (binary_word.hpp:131). C11_general gives the exact behaviour for every word and k.")
c("C12", "partial", ns(B, "C12_appendBit", "C12_append_partial", "C12_self_refuted", "C12_self_empty"),
  "False for w.append(w) with w non-empty: the loop re-reads size() and does not terminate. Proved for distinct words and for the empty word.")
c("C13", "proved", ns(B, "C13_roundTrip", "C13_bracketed"),
  "StringType is taken to be std::string; binary_word.hpp does not declare it (C117).")
c("C14", "partial", ns(B, "C14_blank_refuted", "C14_run_partial", "C14_bracket_partial"),
  "False for blank strings: the uninitialised variable `symbol` is used. The two partial theorems cover every other string.")
c("C15", "partial", ns(B, "C15_general", "C15_iff_partial", "C15_refuted", "C15_written"),
  "False when a non-empty word follows an empty one: the character e is put back and blocks the stream. The exact set of sequences for which it holds is proved.")
c("C16", "partial", ns(B, "C16_refuted", "C16_format_partial"),
  "False: boolalpha is left set after every non-empty word. The exact effect on the stream is proved.")
c("C17", "proved", ns(B, "C17_bytes", "C17_setBack", "C17_setBack_empty"),
  "Lengths are below 2^63, the maximal size of a vector of Booleans.")
c("C18", "proved", ns(S, "C18_writeSequence", "C18_writePointerSequence", "C18_writePointerSequence_null", "C18_printVector", "C18_printSet", "C18_printList"),
  "Streams that have not failed, items that write a text.")
c("C19", "proved", ns(S, "C19_roundTrip", "C19_vector", "C19_sameDelimiters"),
  "C locale (C113 for others), streams without an exception mask.")
c("C20", "proved", ns(S, "C20_readSequence", "C20_unique", "C20_readVector_int"),
  "C locale (C113 for others), streams without an exception mask.")
c("C21", "partial", ns(S, "C21_blankInput_refuted", "C21_notGood_refuted", "C21_noIndeterminate_partial"),
  "False: on every blank input the uninitialised variable c is compared (stlio.hpp:152-158).")
c("C22", "partial", ns(S, "C22_writeMapSequence", "C22_writeMapPointerSequence", "C22_printMap", "C22_printPair", "C22_printTuple_partial", "C22_refuted"),
  'False for std::tuple<>, for which operator<< does not compile (stlio.hpp:193-199, C22_refuted). Proved for everything else, for streams that have not failed and items that write a text. For which types operator<< is found is C86.')
c("C69", "proved", ns(S, "C69_text", "C69_string", "C69_int_injective", "C69_int_numeral"),
  "Streams that have not failed, items that write a text.")
A = "Helper.Arr"
c("C23", "partial", ns(A, "C23_values_partial", "C23_moved_partial", "C23_refuted"),
  'False (C23_refuted) where sizes do not fit into the address space and the size of the allocation wraps around, and for assign from a part of the array itself, which reads freed storage. Proved for all other histories.')
c("C24", "proved", ns(A, "C24_copy", "C24_independent", "C24_swap"),
  "Operations that are defined; exceptions are C29.")
c("C25", "partial", ns(A, "C25_noLeak_partial", "C25_owned_partial", "C25_balance", "C25_moveAssign_leaks", "C25_refuted"),
  "False: move assignment overwrites the pointer of its target without freeing it (array.hpp:134-135). Proved for histories without move assignment to a non-empty array; C25_moveAssign_leaks says exactly what is lost.")
c("C26", "partial", ns(A, "C26_resize_partial", "C26_reallocate_partial", "C26_refuted"),
  'False if n*sizeof(T) is 2^64 or more: the size of the allocation wraps around (C26_refuted). Proved below that.')
c("C27", "proved", ns(A, "C27_access", "C27_undefined", "C27_write"))
c("C28", "proved", ns(A, "C28_eq", "C28_eq_iff"))
c("C29", "partial", ns(A, "C29_destructible_partial", "C29_strong_partial", "C29_iff_partial", "C29_danger_refuted", "C29_alloc_refuted", "C29_refuted"),
  "False: copy assignment and reallocate free the old storage before allocating; an allocation failure leaves the array with a dangling pointer that its destructor frees again, and an element constructor that throws leaves raw elements that its destructor destroys. C29_iff_partial: an operation that throws leaves its target destructible exactly when it is neither a copy assignment between different sizes nor a reallocate to another size.")
c("C30", "partial", ns(A, "C30_refuted", "C30_fits_partial"),
  "False: size*sizeof(T) wraps modulo 2^64 (array.hpp:55), so an oversized request yields a short buffer. Proved when the product fits.")
c("C31", "partial", ns(A, "C31_fill", "C31_fillFrom", "C31_assign_partial", "C31_assign_refuted"),
  "fill is proved. assign is false for a range inside the array itself, whose storage is freed before it is read; proved for every other range.")
c("C32", "partial", ns(A, "C32_complement_partial", "C32_undefined", "C32_iff", "C32_refuted"),
  'False if the complement has 2^61 elements or more: the size of its allocation wraps around (C32_refuted). Proved below that; C32_iff says exactly for which arguments the call is defined.')
c("C70", "proved", ns(A, "C70_reversed", "Reversed.C70_ndebug", "Reversed.C70_assign"),
  "With NDEBUG there is no assertion, and no array either: the construction throws or is undefined (C70_ndebug). So for assign, which has none (C70_assign).")
D = "Helper.Shared"
c("C33", "proved", ns(D, "C33_shared", "C33_freed"),
  "Allocations and assignments of elements do not throw (C78) and there is one thread (C118).")
c("C34", "partial", ns(D, "C34_refuted", "C34_refuted_example"),
  "False: the destructor decrements the pointer _count instead of the counter and then reads in front of it (array.hpp:231); C34_refuted shows this for every live SharedArray in every state, so there is no part of the property left to prove.")
E = "Helper.SetC"
c("C35", "proved", ns(E, "C35_contains", "C35_subset", "C35_disjoint"),
  "Comparisons are strict weak orders and do not throw; allocations that fail are C81.")
c("C36", "proved", ns(E, "C36_adjoin", "C36_join", "C36_remove", "C36_removeElem", "C36_removeList", "C36_restrict", "C36_intersection", "C36_intersectionList", "C36_difference"),
  "Comparisons are strict weak orders and do not throw; allocations that fail are C81.")
c("C37", "partial", ns(E, "C37_refuted", "C37_actual", "C37_iff_partial"),
  "False: the member restrict has the code of remove (container.hpp:197-200). Its exact effect is proved, and that the property holds for the empty set only.")
c("C38", "proved", ns(E, "C38_increasing", "C38_makeSet", "C38_roundTrip"),
  "Comparisons are strict weak orders and do not throw; allocations that fail are C81.")
c("C42", "proved", ns(E, "C42_unique", "C42_duplicate", "C42_unique_iff"),
  "Comparisons are strict weak orders and do not throw; allocations that fail are C81.")
G = "Helper.MapC"
c("C39", "proved", ns(G, "C39_get", "C39_insert", "C39_index", "C39_assign"),
  "Comparisons are strict weak orders and do not throw; allocations that fail are C81.")
c("C40", "proved", ns(G, "C40_adjoin", "C40_join"),
  "Comparisons are strict weak orders and do not throw; allocations that fail are C81.")
c("C41", "partial", ns(G, "C41_keys", "C41_values", "C41_restrictKeys_partial", "C41_restrictKeys_refuted", "C41_removeKeys"),
  "keys, values and remove_keys are proved. restrict_keys casts its std::set argument down to Set (container.hpp:289), which is undefined for a plain std::set; proved for Set arguments.")
I = "Helper.ListC"
c("C43", "partial", ns(I, "C43_appendElem", "C43_catenate", "C43_append_partial", "C43_diverges_refuted", "C43_selfEmpty", "C43_construct"),
  "False for append(vector) and concatenate with 2^32 or more elements (unsigned int counter) and for a non-empty list appended to itself: the loop does not terminate. Every other case is proved.")
c("C44", "partial", ns(I, "C44_apply_partial", "C44_pure", "C44_elementwise2", "C44_sizes", "C44_ndebug")+ns("Helper.ListC.Changing","C124_apply_refuted"),
  'Proved for functions that do not change the list they are applied to; for those that do it is false (C124_apply_refuted, C124_shrink_refuted). The sizes are compared by assert, so not with NDEBUG (C44_ndebug).')
J = "Helper.Range"
c("C45", "proved", ns(J, "C45_visits", "C45_forward", "C45_wraps", "C45_range1"))
K = "Helper.Iter"
c("C46", "proved", ns(K, "C46_compare", "C46_diff", "C46_move", "C46_laws", "C46_overflow"))
c("C47", "proved", ns(K, "C47_forward", "C47_iterate", "C47_pair", "C47_pair_failure"))
L = "Helper.Lazy"
c("C48", "proved", ns(L, "C48_onlyEval", "C48_construct", "C48_first", "C48_later", "C48_reachable"),
  "Factories do not use the variable they make (C123); one thread (C50).")
c("C49", "proved", ns(L, "C49_retries", "C49_failing", "C49_null", "C49_defined", "C49_empty"))
c("C50", "partial", ns(L, "Threads.C50_refuted", "Threads.C50_race_refuted", "Threads.C50_serial_partial", "Threads.C50_evaluated_partial"),
  "False: operator() tests and resets _obj without synchronisation (lazy.hpp:47). Any two concurrent first evaluations race, and some schedules call the factory in every thread and delete objects in use. Proved for threads serialised from outside and for a Lazy evaluated before the threads start.")
c("C51", "proved", ns(L, "C51_after", "C51_before", "C51_own", "C51_different", "C51_move"))
c("C71", "proved", ns(L, "C71_ownership"))
M_ = "Helper.Stopwatch"
c("C52", "proved", ns(M_, "C52_forms", "C52_duration", "C52_unique", "C52_zero", "C52_stable"))
c("C53", "proved", ns(M_, "C53_monotone", "C53_accurate", "C53_elapsed", "C53_backwards"),
  "Seconds are exact rationals here; C102 is about doubles.")
N_ = "Helper.Handle"
c("C54", "proved", ns(N_, "C54_change", "C54_managed", "C54_throw", "C54_history", "C54_agree"),
  "One thread (C101).")
c("C55", "partial", ns(N_, "C55_refuted", "C55_actual", "C55_unshared_partial", "C55_after_ref_partial"),
  "False: the non-const dynamic_handle_extract (handle.hpp:160-169) does not make the object unique, so the change is seen through every handle that shares it. The exact effect is proved, and the property for a handle that does not share its object.")
c("C56", "partial", ns(N_, "C56_refuted", "C56_partial", "C56_obtained"),
  "False: every call of a non-const accessor clones and deletes the object, even if unshared (handle.hpp:108-109). Proved for histories without such calls on the handle.")
c("C57", "partial", ns(N_, "C57_cast_partial", "C57_extract_partial", "C57_extractOp_partial", "Hierarchy.C57_refuted", "Hierarchy.C131_classes"),
  "False if the target is repeated in the object, whose casts then fail (C57_refuted). Proved for public bases that are not repeated; C131 is for all hierarchies.")
c("C72", "proved", ns(N_, "C72_lifetime", "C72_read", "C72_read_any", "C72_last"),
  "One thread (C101 for several). What was last written is given by a store in which nothing is deleted (C72_last).")
O_ = "Helper.Variant"
c("C58", "partial", ns(O_, "C58_accept", "C58_alternative_partial", "C58_holds", "C58_wellFormed", "C58_narrowing", "C58_refuted"),
  "False for codes that are not values of the code type of the variant: they are converted without a diagnostic, so that the variant holds no alternative (C58_narrowing) or another one (C58_refuted). Proved for codes of the code type, which all enumerations are, and for all codes in C132.")
c("C73", "partial", ns(O_, "C73_refuted", "C73_const_partial"),
  "False: accept casts the constness of the visitor away (variant.inl.hpp:173) and calls a non-const operator(). Proved for call operators that do not change the visitor.")
P_ = "Helper.Meta"
c("C59", "proved", ns(P_, "C59_areAllSame", "C59_isOneOf", "C59_indexOf", "C59_indexOf_none", "C59_first_second"))
Q_ = "Helper.TupleC"
c("C60", "proved", ns(Q_, "C60_pair", "C60_swap", "C60_refs", "C60_refs_noSwap", "C60_tuple", "C60_tuple_size", "C60_tupleRefs_size", "C60_tupleRefs", "C60_get"),
  "Copies and assignments of the components do not throw.")
R_ = "Helper.Macro"
c("C61", "partial", ns(R_, "C61_asserts", "C61_ndebug", "C61_equal", "C61_operands", "C61_fail", "C61_iff", "C61_msg_refuted", "C61_equal_refuted"),
  "False where the message contains user expressions (the _MSG forms and HELPER_ASSERT_EQUAL, which evaluates its arguments again): an exception of the message replaces std::runtime_error. All other cases are proved.")
c("C62", "partial", ns(R_, "C62_history_partial", "C62_once_partial", "C62_throw_refuted"),
  'False if writing the message of HELPER_WARN_ONCE throws at the first visit: it is then never printed (C62_throw_refuted). Proved for messages that can be written, in one thread (C103 for several).')
S_ = "Helper.TestC"
c("C63", "partial", ns(S_, "C63_count_partial", "C63_overflow_refuted", "C63_anyNumber", "C63_call", "C63_other"),
  "Proved for every test program with fewer than 2^31 failures; beyond, the int counter overflows, which is undefined.")
c("C64", "partial", ns(S_, "C64_status", "C64_refuted", "C64_small_partial", "C64_exact"),
  "False: the exit status is the number of failures modulo 256. Proved for fewer than 256 failures.")
c("C65", "partial", ns(S_, "C65_rel", "C65_pass_partial", "C65_pass2_partial", "C65_fail_partial", "C65_compare_refuted", "C65_predicate_refuted", "C65_verdict_refuted"),
  "False for HELPER_TEST_COMPARE, HELPER_TEST_RESULT_COMPARE and the predicate macros, which evaluate operands twice when passing. Proved for the other checks.")
c("C74", "partial", ns(S_, "C74_actual", "C74_term_partial", "C74_refuted"),
  "False: the arguments of HELPER_TEST_WITHIN are not parenthesised (test.hpp:309), so abs(e-a+b) is computed for x=a+b. Proved for a single term.")

T_ = "Helper.StackTrace"
c("C66", "partial", ns(T_, "C66_named_partial", "C66_count_partial", "C66_noName_refuted", "C66_memory_refuted", "C66_noInfo_partial", "C66_disabled"),
  "False: for a frame in a known object file that matches no symbol dli_sname is null and is written to std::cerr (stack_trace.cpp:57), which is undefined. Proved for stacks whose frames have names or no information.")
U_ = "Helper.Randomiser"
c("C67", "partial", ns(U_, "C67_make", "C67_int", "C67_real_partial", "C67_real_refuted", "C67_shared_partial", "C67_units_refuted"),
  "The interval is proved from the specification of the standard distributions. False for reals with min=max (empty interval) and for several translation units, each of which has its own engine (randomiser.hpp:59).")
c("C75", "partial", ns(U_, "C75_refuted", "C75_own_partial"),
  "False: RandomiserInterface (randomiser.hpp:61) has a virtual function but no virtual destructor.")
V_ = "Helper.Writable"
c("C68", "partial", ns(V_, "C68_interface", "C68_chain", "C68_texts", "C68_temporary", "C68_chainTemp_partial", "C68_chainTemp_refuted"),
  "Proved for WritableInterface. For WritableTemporary the chain continues on the stream the writer returns; proved for writers that return their argument.")
c("C76", "partial", ns(V_, "C76_refuted", "C76_exact_partial", "C76_effect_partial"),
  "False: IsWritable tests the call with an rvalue stream (writable.hpp:56), so it is false for every _write(ostream&). The types it holds for are characterised.")

c("C77", "partial", ns("Helper.Arr", "C77_uninitialised_partial", "C77_lost", "C77_refuted"),
  'False if n*sizeof(T) is 2^64 or more: the size of the allocation wraps around (C77_refuted). Proved below that.')
c("C78", "partial", ns("Helper.Shared", "C78_nothing_throws_partial", "C78_counter_partial", "C78_buffer_refuted", "C78_element_refuted", "C78_element_beyond_partial"),
  "False: if new T[n] throws, the counter is never freed (array.hpp:232); if the assignment of an element throws (array.hpp:234, 236), the destructor runs, which is undefined (see C34). Holds if only the allocation of the counter throws.")
c("C79", "partial", ns("Helper.Arr", "C79_same", "C79_values_partial", "C79_refuted"),
  'False for lengths whose byte size is 2^64 or more (C79_refuted). The effects are those of construction from the converted values, always (C79_same); the values are proved for lengths whose byte size is below that.')
c("C80", "partial", ns("Helper.ListC", "C80_linked", "C80_count_partial", "C80_count_refuted"),
  "False for counts of 2^32 or more, which are converted to unsigned int (container.hpp:144). The constructor from a count and a value, append(LinkedList) and concatenate do not compile.")
c("C81", "proved", ns("Helper.SetC", "C81_no_fault", "C81_adjoin", "C81_sweep", "C81_removeList", "C81_mapAdjoin", "C81_removeKeys", "C81_append", "C81_append_ends", "C81_append_other"),
  'The exception thrown is taken to be bad_alloc. An append whose index wraps around goes on until an exception; what the list is then is part of C81_append.')

c("C82","partial",ns("Helper.Seq","C82_same", "C82_item","C82_text","C82_ints","C82_words_partial","C82_words_refuted"),
  "Proved for integers in the range of their type and for non-empty words, at every depth. False for empty words: a vector holding one anywhere is written with an 'e' that makes the reader throw (C82_words_refuted).")

c("C83","partial",ns("Helper.Meta","C83_concept","C83_isInvocable_partial","C83_scalar_refuted","C83_refuted","C83_void_refuted","C83_trait_partial","C83_explicit"),
  "False: IsInvocableReturning tests an assignment to an rvalue (metaprogramming.hpp:125), so it is false for every scalar and for void; both traits are defined for one argument only. The concepts, which the library uses, are right.")
c("C84","partial",ns("Helper.Overload","C84_ranks","C84_list_partial","C84_array_partial","C84_list_refuted","C84_array_refuted","C84_value"),
  "False: for a List (derived from std::vector) the generic overload is the better match, so make_list(List) and make_array(List) have one element, the list; the same for std::set; make_list(Array) does not compile.")
c("C85","partial",ns("Helper.Overload","C85_array_partial","C85_array_refuted","C85_list", "C85_arith","C85_arrayTypes_partial","C85_list_refuted","C85_list_partial"),
  "False: Array<int>(3,5) selects the iterator constructor and does not compile; List<int>(3) is the list with the element 3; List<double>(3) is ambiguous. All cases are characterised.")

c("C86","partial",ns("Helper.Lookup","C86_assoc","C86_exact","C86_library_partial","C86_own_partial","C86_vectors_partial","C86_refuted","C86_tuple_refuted"),
  "False: std::tuple<int,int>, Array<std::vector<int>>, std::vector<std::set<int>>, List<std::set<int>>, std::list<std::vector<int>> and std::pair<int,std::vector<int>> cannot be printed, as the printer (or write_tuple) is not found from the place where it is needed. Exactly the printable types are characterised.")

c("C87", "partial", ns("Helper.Seq","C87_same","C87_contents_partial","C87_throws_partial","C87_unique","C87_throw", "C87_undefined", "C87_blankOpening", "C87_refuted"),
  'False for a blank as separator, which is skipped and never seen (C87_refuted). Proved for delimiters that are not blanks, the closing one different from the others (C87_throws_partial also for equal ones), for streams without an exception mask in the C locale.')

c("C88","proved",ns("Helper.Arr","C88_held","C88_released","C88_dropped","C88_history","C88_loop","C88_update","C88_ends"),
  "Operations that are defined; exceptions are C29.")

c("C89","partial",ns("Helper.Lazy","C89_exact","C89_deterministic","C89_client","C89_reentrant","C89_endless","C89_refuted","C89_depth","C89_acyclic_partial","C89_plain"),
  "False: a factory that evaluates its own variable is called again, and the object of the inner evaluation is deleted when the outer one resets the pointer (lazy.hpp:47), or the evaluation never ends. Holds if no factory evaluates its own variable, directly or through others; what the client gets is safe in every case.")

c("C90","partial",ns("Helper.TestC","C90_erase","C90_reports_partial","C90_atMost","C90_silent","C90_refuted"),
  "False: the expressions are evaluated again for the message (after the failure is counted); if that throws, the failure is counted but not reported. Holds if these evaluations do not throw. There are never more reports than failures, and without a failure nothing is written.")

c("C91","partial",ns("Helper.TestC","C91_assert","C91_check_partial","C91_same_partial","C91_sameAs_partial","C91_equal_partial","C91_notEqual_partial","C91_equals_partial","C91_within_partial","C91_less_partial","C91_unaryPredicate_partial","C91_binaryPredicate_partial","C91_compare_partial","C91_resultCompare_partial","C91_checkWarn_partial","C91_staticAssert","C91_title","C91_comment","C91_warn_partial","C91_notify_partial","C91_print","C91_skip","C91_construct","C91_try","C91_try_ok","C91_execute","C91_call","C91_call_ok","C91_testClass","C91_evaluate","C91_evaluate_throws","C91_assign","C91_assign_throws","C91_declare_partial","C91_declare_throws_partial","C91_throws_none","C91_throws_expected","C91_throws_other","C91_fail_none","C91_fail_thrown","C91_values_refuted"),
  "False: the expressions are evaluated again for each message, so that it may show values that were not compared (C91_values_refuted). The exact texts are proved for expressions that keep their value, and without restriction for the macros that evaluate once. HELPER_TEST_LESS calls itself an equality, HELPER_TEST_THROWS and HELPER_TEST_FAIL do not name the statement, HELPER_TEST_DECLARE joins the class and the variable without a space.")

c("C92","partial",ns("Helper.MText","C92_assert","C92_precondition","C92_debugPrecondition","C92_throw_partial","C92_msg_partial","C92_tests","C92_illFormed","C92_cond_types","C92_stream_true","C92_refuted"),
  "False for messages with operators weaker than <<: of a conditional, && or || only the part before the operator is shown (C92_tests, C92_refuted), with a comparison or a bitwise operator the macro does not compile (C92_illFormed). Proved for messages made of parts separated by << (C92_msg_partial), and without restriction for the macros without a message.")

c("C93","partial",ns("Helper.MText","C93_grammar","C93_productions","C93_equal_cond","C93_unit_iff","C93_within_iff","C93_tolerance_iff","C93_within_refuted","C93_equal_partial","C93_equal_shifts","C93_equal_first","C93_equal_second","C93_equal_refuted","C93_note_partial","C93_title_partial","C93_note_weak"),
  "False: HELPER_ASSERT_EQUAL(1<<2,5) shows 12 != 5, HELPER_TEST_WITHIN(7,2+3,t) computes 7-2+3. Exactly which arguments are taken as units is proved (C93_unit_iff and its uses); HELPER_ASSERT_EQUAL and the diagnostic macros do not compile with weaker operators in an argument that is followed by <<.")

c("C94","partial",ns("Helper.TestC","C94_failures","C94_passes_iff","C94_refuted"),
  "False if the vector of expected elements is shorter than the expected number says: the macro then reads beyond its end (C94_refuted). Exact number of failures otherwise.")

c("C95","partial",ns("Helper.TestC","C95_defined_iff","C95_result_partial","C95_again_partial","C95_refuted"),
  "False for a vector with the same pointer at two places, whose object is deleted twice (C95_refuted). C95_defined_iff says exactly when the macro is defined.")

c("C96","partial",ns("Helper.Stmts","C96_reading","C96_compiles_iff","C96_meaning_partial","C96_calls_partial","C96_else_refuted","C96_two_refuted","C96_once_if_refuted","C96_once_if_silent","C96_once_else_taken","C96_construct_if_refuted","C96_declare_if_refuted","C96_construct_else_refuted","C96_scopes"),
  "False: if(c) HELPER_WARN(m); else f(); does not compile (C96_else_refuted), two macros that print once do not fit in one block (C96_two_refuted), and one that is the branch of an if does not compile (C96_once_if_refuted) or, after another one in the same block, compiles but never prints (C96_once_if_silent) and takes the else branch whatever the condition is (C96_once_else_taken). HELPER_TEST_CONSTRUCT and HELPER_TEST_DECLARE after if(c) construct their variable whatever c is, and do not compile with else. Exactly which of the other programs compile is proved (C96_compiles_iff), and that these do what they should.")

c("C97","partial",ns("Helper.Names","C97_clean_partial","C97_self_refuted","C97_auto_refuted","C97_within_refuted","C97_result_refuted","C97_stream_refuted","C97_notStream","C97_ss_refuted","C97_message_refuted","C97_predicate_refuted","C97_streamName_refuted","C97_and_partial","C97_grid_partial","C97_grid_refuted","C97_vector_partial","C97_vector_refuted"),
  "False for arguments with the names that the macros declare: HELPER_TEST_WITHIN(a,b,error) and HELPER_TEST_RESULT_COMPARE(T,a,==,result) pass for all values, HELPER_DEBUG_PRECONDITION(result) and the like read an uninitialised variable, HELPER_THROW(E,f,ss.str()) shows the beginning of its own message, HELPER_CLEAN_TEST_VECTOR(vs[i]) runs along the diagonal. Proved for all macros and arguments without these names (C97_clean_partial and those for the two loops).")

c("C98","partial",ns("Helper.Using","C98_direct_partial","C98_implicit_partial","C98_explicit_refuted","C98_trait_refuted","C98_copy_partial","C98_copy_refuted","C98_derived_refuted","C98_members_refuted","C98_viable","C98_redundant"),
  "False: the unconstrained forwarding template is the better match for objects of the class that are not const and for objects of derived classes, so that their members are not copied (C98_copy_refuted, C98_derived_refuted); it makes explicit constructors of the base implicit (C98_explicit_refuted) and the traits true for all types (C98_trait_refuted). The other two templates change nothing (C98_redundant). Direct initialisation from other arguments, and copies of const objects and moves, are as they should be.")

c("C99","partial",ns("Helper.Tests","C99_lru","C99_lru_wrong","C99_labels","C99_container","C99_array","C99_lazy","C99_stopwatch_partial","C99_stopwatch_refuted","C99_randomiser","C99_trace_partial","C99_trace_refuted","C99_exceptions"),
  "The tests of LRUCache, containers, arrays, Lazy and randomisers pass. False for the stopwatch: the test fails if the clock moves by the ten milliseconds of the sleep and less than one microsecond more, since it asks for more than 10000 truncated microseconds (C99_stopwatch_refuted); and for stack traces with a frame without name (undefined) or without memory (abort) (C99_trace_refuted).")

c("C100","partial",ns("Helper.Seq","C100_read","C100_roundTrip","C100_vector","C100_plus_partial","C100_negative_refuted"),
  "False for negative numbers: is >> x for an unsigned type takes a minus sign and read_sequence does not look for it, so that [-1] is read as [max] without an error (C100_negative_refuted). What is accepted and stored is proved for every input (C100_read); without a minus sign in the input the property holds (C100_plus_partial); the round trip holds without restriction.")

c("C101","partial",ns("Helper.Handle.Threads","C101_noRace_partial","C101_values_partial","C101_freed_partial","C101_alone_partial","C101_finish_partial","C101_extract_refuted"),
  "False for the non-const dynamic_handle_extract, which gives access to the shared object without cloning it: the change races with every access of another thread, which then reads the new value (C101_extract_refuted). Proved for all programs without it; the clone that make_unique always makes (C56) is what makes this hold.")

c("C102","partial",ns("Helper.Double","C102_nearest","C102_exact","C102_even","C102_error","C102_mono","C102_once_partial","C102_ratio_partial","C102_order","C102_sign","C102_distinct_partial","C102_bound","C102_elapsed_partial","C102_clicks","C102_twice_refuted"),
  "False beyond 2^53 units (104 days in nanoseconds, 285 years in microseconds): the count is rounded to double before the division, so that the result is not the nearest double and different readings coincide (C102_twice_refuted). Proved up to 2^53 units (nearest) and 2^52 units (distinct); order and sign, and an error of at most about 2^-52 times the value, without restriction. The first five theorems say that the model of rounding is IEEE rounding to nearest even.")

c("C103","partial",ns("Helper.Macro.Threads","C103_perThread","C103_notLost","C103_first_partial","C103_all_refuted"),
  "False: the variable first_time is neither atomic nor locked; if all threads read it before one has cleared it, each prints the message, and any two threads that come to the call site race (C103_all_refuted). Each thread prints at most once (C103_perThread), the message is never lost (C103_notLost), and it is printed once if the first visit is over before others begin (C103_first_partial).")

c("C104","partial",ns("Helper.Randomiser.Threads","C104_serial_partial","C104_bounds","C104_overlap_refuted"),
  "False: the engine is shared and not protected; two threads that read it before one has written it get the same value, and a late thread sets the engine back (C104_overlap_refuted). Holds for calls that do not overlap (C104_serial_partial); the bounds hold for every schedule in which the engine is read and written as a whole (C104_bounds).")

c("C105","partial",ns("Helper.Arith","C105_comm","C105_assoc","C105_closed","C105_exists","C105_inplace","C105_conv","C105_values_partial","C105_float_partial","C105_double","C105_less_partial","C105_sum_partial","C105_product_partial","C105_small","C105_refuted"),
  "The statements about types hold on every platform. False for values: int with unsigned loses the negative ones, int with float those of more than 24 bits, and the product of two unsigned shorts is undefined (C105_refuted). Exactly when values are kept is proved (C105_values_partial, C105_float_partial, C105_double); sums and products of small types are right.")

c("C106","partial",ns("Helper.Meta.Operators","C106_references_partial","C106_const_partial","C106_refuted"),
  "False: the concept applies the operator to variables, the alias to rvalues, so that overloads that take only one of them, operands by value of move-only classes and ambiguities make a difference (C106_refuted). Holds for lvalue references as arguments, and for overloads that take const references or copies.")

c("C107","partial",ns("Helper.Iter","C107_each","C107_back","C107_forward","C107_lowerBound","C107_arrow","C107_forward_operators","C107_random_refuted"),
  "False for the operators: the random access facade declares random_access_iterator_tag but has no a++, a--, n+a and a[n] (C107_random_refuted); the forward facade has all it needs. Loops and the binary search are proved without restriction.")
c("C108", "proved", ns("Helper.LRU","C108_value","C108_hit","C108_inclusion","C108_once","C108_competitive", "C108_none", "C108_strategy"),
  'For labels compared by a strict weak order: an access may give f of an equivalent label accessed before (C108_value), which is f(label) if f respects the equivalence.')
c("C109","proved",ns("Helper.LRU","C109_values","C109_others","C109_refs"),
  "A moved-from std::map is taken to be empty.")

c("C110", "partial", ns("Helper.Handle", "C110_actual", "C110_faithful_partial", "C110_faithful_iff", "C110_part", "C110_refuted", "C110_compiles",
  "C110_makeHandle_partial", "C110_makeHandle_iff", "C110_makeHandle_refuted"),
  "False: the templates of handle.hpp:73-75 copy an object as one of its static class, which slices an object of a further derived class; and make_handle (line 120) passes rvalue arguments on as lvalues. The object held is given in all cases, as are the exact conditions under which it is a copy of the whole.")
c("C111", "partial", ns("Helper.Handle.Delete", "C111_virtual_partial", "C111_const_partial", "C111_nonvirtual_refuted", "C111_raw_refuted", "C111_once", "C111_raw_actual"),
  "False if the interface has no virtual destructor, as make_unique (handle.hpp:109) deletes the clone through a pointer to the interface, and if the pointer returned by pointer() is given to another handle (line 69). Proved otherwise; in the second case every history that destroys all handles is shown to be undefined.")
c("C112", "partial", ns("Helper.Handle", "C112_extract_partial", "C112_cast_partial", "C112_failed", "C112_thrown", "C112_refuted"),
  "False: the static type written is that of a pointer to the interface (typeid(i), handle.hpp:141, 152, 167), and an exception of _write replaces std::bad_cast. The text is proved exactly when _write behaves; the other cases are given too.")

c("C113", "partial", ns("Helper.Seq", "C113_ints_partial", "C113_comma_refuted", "C113_comma_partial", "C113_misread", "C113_leading", "C113_refuted"),
  "False: in a locale that groups digits with commas a list of two or more integers is never read back (it may silently become another list), as the separator of the list is a comma too (stlio.hpp:147). Proved for all other separators that are no digits, signs or delimiters, and for at most one integer. For groups of equal size the lists misread, and as what, are characterised.")

c("C114", "partial", ns("Helper.MText.Args", "C114_args_partial", "C114_reject", "C114_variadic", "C114_which", "C114_arity", "C114_text", "C114_throw", "C114_throw_str", "C114_quoted", "C114_refuted"),
  "False: a comma within angle brackets or braces separates arguments, so HELPER_ASSERT(std::is_same<int,int>::value) is ill-formed; only the four macros with ... (test.hpp:515-566) accept such texts. Proved: arguments whose commas are within parentheses arrive as written, all others with matching parentheses are rejected, the macros with ... take all, and #parameter always shows what was written.")

c("C115", "partial", ns("Helper.BinWord", "C115_readBack_partial", "C115_grammar", "C115_same", "C115_other", "C115_refuted"),
  "False: writing a non-empty word leaves boolalpha set (binary_word.hpp:233-236), so a list written before it as [1] is then expected to be [true] and reading throws. Proved for non-empty words: reading back succeeds unless boolalpha was off and a non-empty list was written before the first word, and throws in that case. (Empty words are not read back at all, see C15.) Which lists are read with boolalpha set is proved too.")
c("C116","partial",ns("Helper.Link","C116_links_partial","C116_refuted","C116_others_partial","C116_unit","C116_engines","C116_oneDefinition"),
  "test.hpp defines four variables with external linkage and randomiser.hpp a static engine that a member template names: at most one unit of a program can include each of them (exact condition proved); there is one engine per unit")
c("C117","partial",ns("Helper.Link","C117_order_partial","C117_refuted","C117_others_partial","C117_depth"),
  "writable.hpp and variant.inl.hpp need std::ostream and abort from headers included earlier, binary_word.hpp names a type declared nowhere; the exact condition on the list of headers is proved")
c("C118","partial",ns("Helper.Shared.Threads","C118_exclusive_partial","C118_locked_partial","C118_separate_partial","C118_copies_partial","C118_refuted","C118_leak_refuted","C118_atomic_refuted", "C118_freed"),
  "The counter is a plain size_t: two threads can lose an increment (use after free) or a decrement (leak), and since the decrement and the test for zero are separate, an atomic counter would still allow a double free. Proved for threads that do not use the same counter at the same time (by a lock, or because they share no buffer), and for threads that do not assign, whose counters never exceed the number of arrays")
c("C119","partial",ns("Helper.Seq","C119_chars_partial","C119_chars_only","C119_refuted","C119_strings_refuted","C119_strings_throw"),
  "False: blanks are skipped by the reader, a vector that begins with a closing bracket is read as empty, and strings swallow separators and brackets. Proved: vectors of characters are read back exactly if they hold no blank and do not begin with a closing bracket; no vector of strings but the empty one is ever read back")
c("C120","partial",ns("Helper.Double","C120_read","C120_nearest","C120_error","C120_few","C120_stable","C120_many","C120_seventeen_partial","C120_default_partial","C120_refuted","C120_sixteen_refuted","C120_comma_refuted","C120_numerals","C120_noNumber"),
  "False with the default precision (C120_refuted) and with 16 digits (C120_sixteen_refuted), and with a comma as decimal point (C120_comma_refuted). Proved for precision 17 or more, and for precision up to 15 for exactly the elements nearest to a decimal number of that many digits (C120_few, C120_default_partial); what is read in general is C120_read with C120_nearest and C120_error, and for numbers written in any other way C120_numerals. Exponent bounds, infinities, NaN and the sign of zero are in C129.")
c("C121","partial",ns("Helper.LRU.Threads","C121_locked_partial","C121_values","C121_race_refuted","C121_readers","C121_noGet_partial","C121_refuted","C121_age_refuted","C121_every_capacity_refuted"),
  "False: get changes the ages of other elements, so that two threads that both find what they look up have a data race, and can leave two elements of the age 0; then a later put erases end(). Proved: the answers of get and has_label are right whatever the schedule, calls that do not overlap behave as if made one after another, and there is no race without get")

c("C122", "partial", ns("Helper.Handle.Throw", "C122_throw_partial", "C122_history_partial", "C122_noLeak", "C122_const_partial", "C122_faultless", "C122_moved", "C122_moved_refuted", "C122_nonvirtual_refuted"),
  "False for the argument of a constructor that moves (handle.hpp:71, 73): it has been moved from before the control block is allocated. False without a virtual destructor, as the clone is deleted through a pointer to the interface. Proved otherwise; which arguments are changed is characterised exactly.")
c("C123", "partial", ns("Helper.Lazy.Busy", "C123_ownership", "C123_noLeak", "C123_made", "C123_stays", "C123_copy", "C123_change_refuted"), "Ownership and stability hold whatever factories do; a factory that changes the variable being evaluated is undefined")
c("C124", "partial", ns("Helper.ListC.Changing", "C124_elementwise", "C124_length", "C124_apply_partial", "C124_assign", "C124_two", "C124_apply_refuted", "C124_shrink_refuted", "C124_append_refuted", "C124_two_refuted"), "Assigning to elements is fine; functions that change the size make apply undefined, and elementwise undefined or endless")
c("C125", "partial", ns("Helper.Handle.Const", "C125_overloads", "C125_const_partial", "C125_assign", "C125_constVar", "C125_extract_refuted", "C125_reference_refuted"), "Holds for const variables and for references from accessors used at once; dynamic_handle_extract of a non-const Handle<const I> returns a non-const reference")
c("C126", "partial", ns("Helper.Lifetime", "C126_kept_partial", "C126_later", "C126_follows", "C126_scope", "C126_during", "C126_calls", "C126_modified", "C126_cstr_refuted", "C126_get_refuted", "C126_tie_refuted", "C126_accept_refuted"), "False for c_str of anything but a String, for get_first of a value, for make_lpair of a value of const class type and for accept with a visitor that returns its argument. Proved for exactly the other calls")
c("C127", "partial", ns("Helper.Wf", "C127_needs", "C127_ordinary_partial", "C127_one_partial", "C127_refuted", "C127_moveOnly", "C127_noDefault", "C127_calls", "C127_own", "C127_unsigned_refuted", "C127_makeListArray"), "False for five functions: LinkedList(n,t), append and concatenate of LinkedLists, apply on a Set and make_list of an Array; and for make_array of an unsigned int (C127_unsigned_refuted). For all others the exact needs are proved, for element types that are classes other than the containers; printing copies the elements, except for std::list")
c("C128", "partial", ns("Helper.Randomiser.Statics", "C128_order_partial", "C128_one", "C128_main", "C128_progress", "C128_refuted", "C128_third_refuted"), "False with two units that use the same type of randomiser: the version of get() kept by the linker can use a generator that is not initialised yet. Proved for one unit, and for exactly the programs in which each initialiser uses the version of its own unit; from main on every use works")
c("C129", "partial", ns("Helper.Double", "C129_nearest", "C129_grid", "C129_limit", "C129_read", "C129_unreadable", "C129_finite_partial", "C129_infinite", "C129_largest", "C129_precisions", "C129_infinite_refuted", "C129_refuted", "C129_field", "C129_notGood", "C129_end", "C129_numerals"), "False for infinities and NaN, which are written but not read (C129_infinite), and for the largest numbers with exactly the precisions 0-5, 10, 11, 15 and 16 (C129_precisions). Proved for all finite values with 17 digits or more, with the sign of zero; what is read in general is C129_read. num_put and num_get are as in libstdc++; libc++ differs for inf, nan and ERANGE")
c("C130", "partial", ns("Helper.LRU.Recursive", "C130_value_partial", "C130_once_partial", "C130_fibonacci", "C130_fibonacci_refs", "C130_refs_refuted", "C130_one", "C130_exponential", "C130_three_partial", "C130_linear", "C130_three_refuted", "C130_refuted"), "False: a reference held across a recursive call can dangle (C130_refs_refuted: Fibonacci numbers, capacity 2; C130_three_refuted: capacity 3 after other calls), and with a small cache values are computed again (C130_refuted; with capacity 1 exponentially often, C130_one). Proved: right values for every capacity if results are copied before the next call; references stay valid and each value is computed once if there is room for all arguments; for the Fibonacci numbers three elements are enough for one call from an empty cache, whatever the argument. Recursions are given as programs that terminate (rank) and catch no exceptions")
c("C131", "partial", ns("Helper.Handle.Hierarchy", "C131_dynamic", "C131_up", "C131_object", "C131_regular_partial", "C131_back_partial", "C131_compiles", "C131_extract", "C131_redundant", "C131_wrapper", "C131_needed", "C131_back_refuted", "C131_private_refuted", "C131_illFormed_refuted", "C131_extract_refuted"), "False: if the interface is repeated in the object, the cast to another class and back can lead to another subobject (C131_back_refuted), a private base can be reached (C131_private_refuted), and dynamic_handle_extract does not compile for the interface and its bases (C131_extract_refuted, exactly these: C131_compiles). Proved: what casts return in every hierarchy, the way back if the interface occurs once and is public in the other class, and that the T of a Wrapper<T,I> is always found. dynamic_cast is as in the standard, for code outside of the classes")
c("C132", "partial", ns("Helper.Variant", "C132_compiles", "C132_exact", "C132_holds", "C132_iff", "C132_same", "C132_refuted", "C58_refuted"), "False: a code that is a value of the promoted code type only (300 for char) compiles and is lost (C58_refuted, exactly these codes: C132_iff), and visitors with results of two types do not compile (C132_refuted; the exact condition is C132_compiles). Proved: where a variant leads for codes of all types, that holds_alternative compares the values of the codes in spite of the conversions, and that everything is right for codes of the code type")
c("C133", "partial", ns("Helper.Seq.Format", "C133_outcome", "C133_iff_partial", "C133_same_partial", "C133_shown_partial", "C133_negative_refuted", "C133_misread_refuted", "C133_refuted", "C133_width_partial", "C133_fill_refuted", "C133_default_text", "C133_default_reader", "C133_letters", "C133_unsigned_refuted"), "False: negative numbers written in octal or hexadecimal are never read back, reading throws (C133_negative_refuted); after a width with a fill character that is not blank reading throws (C133_fill_refuted). Proved: what is read for all flags of the writer and bases of the reader (C133_outcome), exactly when this is what was written (C133_iff_partial), and the case of equal flags. num_put and num_get are as in libstdc++, for right-adjusted output and skipws")
c("C134", "partial", ns("Helper.Seq.Mask", "C134_lists", "C134_words", "C134_roundTrip_partial", "C134_left", "C134_notGood", "C134_defined", "C134_defined_refuted", "C134_word", "C134_word_partial", "C134_word_blank", "C134_word_refuted", "C134_refuted", "C134_same", "C134_contents", "C134_sameWord"), "False for words: with eofbit or failbit in the mask, reading a word that ends the text throws, though all of it has been read (C134_refuted, exactly these: C134_word_partial). Proved for lists, also of words: everything is read as without a mask, and the undefined behaviour on blank input (C21) becomes an exception if eofbit or failbit are in the mask")
c("C135", "proved", ns("Helper.Seq", "C135_lists", "C135_word", "C135_words", "C135_ofString", "C135_items", "C135_masked"), "Streams are finite texts; on a stream that never ends (a terminal) reading can go on for as long as separators come")
c("C136", "partial", ns("Helper.Seq.Raw", "C136_lists", "C136_ints", "C136_bools", "C136_words", "C136_start", "C136_roundTrip", "C136_roundTripWords", "C136_chars", "C136_chars_refuted", "C136_word", "C136_word_stuck", "C136_refuted", "C136_lists_refuted"), "False for words one after the other: at a blank the reader of words yields empty words for ever and the stream stays good (C136_word_stuck, C136_refuted); and a vector of characters that begins with a closing bracket is read as empty (C136_chars_refuted). Proved for lists: the same is read if no blank is consumed, otherwise an exception is thrown, exactly; printed lists are read back, and vectors of characters also if there are blanks in them")
c("C137", "partial", ns("Helper.Keys", "C137_orders", "C137_list", "C137_dictionary", "C137_pair", "C137_word", "C137_set", "C137_map", "C137_total", "C137_sets", "C137_maps", "C137_cache", "C137_refuted"), "False for element types whose operator< is no order, such as double with NaN, and for lists of them (C137_refuted); proved for everything that is made of ordered types")
c("C138", "partial", ns("Helper.Seq.Sink", "C138_writers", "C138_prefix", "C138_fits", "C138_fails", "C138_flags", "C138_notGood", "C138_failbit", "C138_failbit_silent", "C138_failbit_last", "C138_raise", "C138_element", "C138_word", "C138_refuted"), "False for the flags: a word whose printing is interrupted by an exception leaves the stream with noboolalpha (C138_refuted; exactly then, C138_word). With only failbit in the mask an exception comes with the next operation that writes, or not at all (C138_failbit, C138_failbit_silent, C138_failbit_last)")
c("C139", "partial", ns("Helper.LRU.Idiom", "C139_values", "C139_few_partial", "C139_locked_partial", "C139_put_refuted", "C139_get_refuted"), "False: two threads that access the same label can both miss, and the second put throws (C139_put_refuted, for every function and capacity); and in a cache of any capacity a label can be evicted between put and get (C139_get_refuted). What is returned is always right and nothing is undefined (C139_values). Proved if the three calls are made under one lock, and for labels of one thread only if there are no more labels than places")
c("C140", "proved", ns("Helper.Shared", "C140_loop", "C140_life", "C140_store", "C140_dangles"), "As C33, for histories without destruction, which is undefined (C34)")
c("C141", "partial", ns("Helper.Seq.Adjust", "C141_first", "C141_iff_partial", "C141_containers", "C141_right", "C141_vector_back", "C141_word_right", "C141_refuted", "C141_word_left_refuted", "C141_word_fill_refuted"), "False: the padding comes before or after the opening bracket (C141_first, C141_refuted), exactly when there is anything to pad (C141_iff_partial, C141_containers). With blanks, vectors of integers are read back all the same, and words without std::left; with std::left only the first letter of a word is read back, without an error (C141_word_left_refuted), and the fill character 0 becomes part of a word (C141_word_fill_refuted)")
c("C142", "proved", ns("Helper.Handle.Extract", "C142_lifetime", "C142_extract", "C142_read"), "std::shared_ptr and its casts are as in the standard; clone, _copy and _move are as in C54. Bases are public and unambiguous (otherwise C131)")
c("C143", "partial", ns("Helper.Meta.ResultOf", "C143_iff_partial", "C143_adjusted", "C143_void", "C143_const_refuted", "C143_function_refuted"), "False for functions F, for which ResultOf does not exist (C143_function_refuted), and for arguments that are const, arrays or functions, which are adjusted (C143_const_refuted, C143_adjusted); proved for the others, exactly (C143_iff_partial). volatile is not modelled")
c("C144", "partial", ns("Helper.Iter.PairIt", "C144_iff_partial", "C144_pointers_refuted", "C144_classes_refuted"), "False: dereference makes a pair of the elements where a pair of pointers to the iterators is declared, so it compiles only if each element is converted to a pointer to its iterator (C144_iff_partial). With pointers as iterators that is so for nullptr_t and classes with such a conversion only (C144_pointers_refuted), and with iterators of classes not for numbers, nor for pointers to anything but iterators (C144_classes_refuted)")
c("C145", "partial", ns("Helper.Seq.Copies", "C145_ok_partial", "C145_defined_partial", "C145_text", "C145_count", "C145_destroyed", "C145_thrown_partial", "C145_safe", "C145_prefix", "C145_none_partial", "C145_nested", "C145_writers", "C145_refuted", "C145_lost_refuted", "C145_shared_refuted"), "False: for(auto x : v) copies every element with all it contains, so an element is copied once for each such container around it (C145_count, C145_nested, C145_refuted); none are copied just in lists, pairs and tuples (C145_none_partial). A copy of an Array that throws loses elements (C145_lost_refuted, exactly when C145_thrown_partial says), and containers of SharedArrays cannot be printed, because the destructor of their copies is undefined (C145_shared_refuted, C145_defined_partial). Proved: when printing succeeds, that copies are destroyed in order, and what is on the stream when something throws. Brackets and separators do not throw (C138)")
c("C146", "partial", ns("Helper.Randomiser.Real", "C146_between_partial", "C146_mono", "C146_excluded_iff", "C146_excluded_partial", "C146_min", "C146_unit", "C146_clip", "C146_float", "C146_draws_partial", "C146_draws_excluded_partial", "C146_words", "C146_max_refuted", "C146_float_refuted", "C146_neighbours_refuted", "C146_zero_refuted", "C146_above_refuted"), "False: the sum is rounded, so UniformRealRandomiser<double>(1,2) can return 2 (C146_max_refuted, C146_float_refuted), and intervals of neighbours give the upper bound for about half of the words (C146_neighbours_refuted). Values stay in the closed interval if the library avoids a canonical number of 1 (C146_draws_partial); otherwise they can be above it (C146_above_refuted). The upper bound is excluded for intervals that contain zero and have a representable width (C146_draws_excluded_partial; C146_zero_refuted without the latter); C146_excluded_iff says exactly when. The algorithms of the distribution are those of libstdc++, with rounding to nearest and without bounds of the exponent")
c("C147", "partial", ns("Helper.Randomiser.Ints", "C147_uniform", "C147_below", "C147_half", "C147_rounds", "C147_get", "C147_between", "C147_first_partial", "C147_each", "C147_full", "C147_pairs", "C147_contract", "C147_refuted"), "Every value is in the interval (C147_between), and each is given by equally many words (C147_each, C147_full) or pairs of words (C147_pairs). That get() returns is false for engines that go on giving words that are rejected (C147_refuted); for fewer than 2^32 values it returns exactly if some word is accepted (C147_first_partial), and at least half of all words are (C147_half). The algorithms are those of libstdc++ with a computation in 64 bits. char and bool, for which the distribution is not defined, are not modelled")
c("C148", "partial", ns("Helper.Randomiser.Seed", "C148_width", "C148_seed_iff", "C148_device", "C148_time", "C148_words", "C148_iff_partial", "C148_default", "C148_refuted"), "Engines with different seeds differ in one of their first 624 words (C148_words), and at any time the numbers of the device give all seeds, each once (C148_device). False with a device that gives the same numbers in every run, which the standard allows: then the sum of the two clocks decides, and a run 4294.963002 s later has the same seed (C148_refuted, C148_time); C148_iff_partial says exactly when two generators agree. The engine is std::mt19937 as in the standard")
c("C149", "partial", ns("Helper.TestC.Within", "C149_rounded", "C149_close", "C149_beyond", "C149_exact_partial", "C149_near_partial", "C149_whole", "C149_whole_close", "C149_fraction_refuted", "C149_int_partial", "C149_unsigned_partial", "C149_unsigned_refuted", "C149_refuted", "C149_abs_refuted", "C149_finite", "C149_values_partial", "C149_infinity_refuted", "C149_nan", "C149_numbers", "C149_small", "C149_zero", "C149_macro", "C149_largest_refuted"), "With the overloads of std::abs the rounded distance is compared (C149_rounded): numbers within the tolerance pass (C149_close), numbers that pass are beyond it by a relative 2^-p at most (C149_beyond), and the check is exact for numbers within a factor of two of each other (C149_near_partial). False: 1 and -2^-60 pass for the tolerance 1 (C149_refuted). The macro calls abs without std:: and test.hpp includes <cstdlib> only, so a program without using namespace std gets int abs(int) from libraries that declare the other overloads in std alone: the fraction is dropped, and 0.75 and 0 are within 0.125 (C149_abs_refuted, C149_fraction_refuted; C149_whole says exactly what passes). On int the check is exact or undefined (C149_int_partial), on unsigned types exact if the distance is an int (C149_unsigned_partial) and wrong for distances that are multiples of 2^32 (C149_unsigned_refuted). For all values of a floating-point type, with infinities and NaN: values within the tolerance pass (C149_values_partial) except an infinity and itself, whose difference is a NaN (C149_infinity_refuted); no check with a NaN passes (C149_nan), and underflow makes no numbers equal (C149_zero, C149_small)")
c("C150", "partial", ns("Helper.Arith", "C150_equal_iff", "C150_less_iff", "C150_same", "C150_partial", "C150_signed_iff", "C150_macros", "C150_check", "C150_refuted", "C150_size_refuted"), "False on every platform: -1 is equal to the largest unsigned number and less than none (C150_refuted), so that HELPER_TEST_LESS(-1, v.size()) fails (C150_size_refuted). Equal numbers always pass (C150_same); everything is right if the common type is signed or the numbers are not negative (C150_partial), and C150_signed_iff says when it is signed. C150_equal_iff and C150_less_iff give the results for all types and values, C150_macros what the macros make of them")
c("C151", "partial", ns("Helper.Iter.PairPrint", "C151_string", "C151_address", "C151_defined_partial", "C151_addresses_partial", "C151_mixed_partial", "C151_text", "C151_copies_refuted", "C151_end_refuted", "C151_commas_refuted"), "False for pointers to characters, which are printed as strings: iterators at copies of a string print the same (C151_copies_refuted), two strings with commas can't be told apart (C151_commas_refuted), and the end of an array of characters is read beyond (C151_end_refuted). Printing is defined exactly if all pointers to characters point to strings (C151_defined_partial). Proved for pointers to other objects (C151_addresses_partial); with one pointer to characters the text tells the other address and the string (C151_mixed_partial).")
