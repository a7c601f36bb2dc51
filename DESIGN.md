# Formal model of ariadne-cps/helper in Lean 4

The C++ sources in `/repo` are read as text; nothing is compiled or run. Each source
component gets a Lean model (`…/Model.lean`), a small independent specification
(`…/Spec.lean` or the top of `…/Props.lean`), helper lemmas (`…/Lemmas.lean`) and the property
theorems with non-vacuity examples (`…/Props.lean`).

## Common conventions

* `Verif/Basic.lean`: `Res α` = `ok a | exn e | ub why | abort`. Undefined behaviour, a C++
  exception and `abort()` are distinct outcomes; nothing is totalised silently.
* Stateful code that may throw halfway is `σ → Res α × σ`, so that the state at the throw
  point is visible (crash points).
* `std::map`/`std::set` (`Verif/StdOrd`): key-sorted lists driven by a comparator `lt` that is
  assumed to be a strict weak order (what the C++ standard requires), not a total order.
* `size_t`/`int`/`ptrdiff_t` are `Nat`/`Int` unless wrap-around matters for the property, then
  `BitVec 64` or explicit `% 2^64` are used (Range, Array byte sizes, `erase_prefix`,
  `List::append` counter, iterator offsets, exit status).
* Streams (`Verif/Stream`): an input stream is consumed/remaining characters plus
  `eofbit/failbit/badbit` and the `boolalpha/skipws` flags; `>> char`, `get`, `putback`,
  `>> bool`, `>> long` follow the C++ standard ([istream], [facet.num.get]).

## Plan per property

| Property | Modelled | Proof |
|---|---|---|
| C01–C05 | `LRUCache` over the std::map model, ages as written | refinement to a recency list (most recent first) over all histories |
| C06 | node identities of map nodes, references as node ids | invariant on node ids; refuted for `put(l, ref to the element being evicted)` and for labels that are part of it |
| C07 | `put` with a throw at the insertion step | refuted by a witness; partial: what does survive |
| C08–C12, C17 | `BinaryWord` loops on `List Bool`, index loops with bounds-checked reads | induction on loops; self-append modelled as an aliased loop, divergence proved |
| C13–C16 | `operator<<`, `operator>>` on the stream model | induction on the text |
| C18–C22, C69 | writers and `read_sequence` on the stream model | induction; grammar as an inductive predicate |
| C23–C31 | `Array` on a heap of blocks with raw/live cells, allocation faults, byte-size wrap | simulation with an ownership invariant against `Var → List V` |
| C32 | `complement` with bounds-checked writes | loop invariant, iff characterisation |
| C33–C34 | `SharedArray` on a heap with count cells | ownership-count invariant; destructor refuted |
| C35–C38 | `Set` and free functions on the sorted-list model | induction, erase-while-iterating loops as written |
| C39–C41 | `Map` | same |
| C42–C44 | `unique_elements`, `duplicate_elements`, `List`, `apply`, `elementwise` | induction |
| C45 | `Range` on `BitVec 64` | induction on the number of steps |
| C46–C47 | `IteratorFacade` operators over an abstract core with 64-bit offsets | algebra |
| C48–C51 | `Lazy`: sequential histories, copies, interleavings of the four steps of `operator()` | invariants; concurrency refuted by a schedule |
| C52–C53 | `Stopwatch` over an arbitrary clock, `duration_cast` as truncating division | history induction, integer arithmetic |
| C54–C57 | `Handle` as shared pointers into an object heap with reference counts | refinement to `Handle → value`; refutations for extract and stale references |
| C58 | the 17 `coded_visit` overloads as written | case analysis per arity against a generic lookup |
| C59 | partial specialisations as list recursion on type names | induction |
| C60 | reference tuples as variable names into a store | induction, aliasing |
| C61–C62 | macros as programs over a state with evaluation log | case analysis, history induction |
| C63–C65 | a small language of test programs; every macro a construct | structural induction against a counting spec |
| C66 | the printing loop over frames, `cerr` with badbit | induction; refuted when a symbol name is null |
| C67 | distributions and engine as parameters with the standard's contract | history induction (partial: the standard library's distribution is assumed) |
| C68 | writers as text producers, temporaries as references | induction |
| C69, C86 | stream operators and unqualified/argument-dependent lookup of printers as a search in a table of declarations | structural induction on types; the printable types characterised |
| C70, C77–C79 | further constructors of `Array`, `Uninitialised`, conversions, throwing `SharedArray` constructors | the same heap model |
| C71, C89 | ownership of the objects made by `Lazy`; factories that evaluate variables, with a bound on the depth that is then shown irrelevant | invariants over all histories; reentrancy refuted, the acyclic case proved |
| C72 | the object heap of `Handle` with reference counts | invariant: live iff owned |
| C73–C76 | `accept`, `HELPER_TEST_WITHIN`, destructors of randomisers, `IsWritable` | case analysis, refutations |
| C80–C81 | `LinkedList`, throwing operations of containers | induction on loops with a fault list |
| C82, C87 | recursive readers, readers of words, contents after a failed read | induction on the text |
| C83–C85 | traits, overload resolution among the constructors and `make_list`/`make_array` by ranking conversion sequences | case analysis, refutations |
| C94, C95 | the iterator macro as a program of the test language; a vector of pointers with the set of live objects | induction over the loop |
| C96 | function bodies as tokens, macros replaced by their tokens, a parser for statements, scopes of the static variable, execution | the parser is proved to read the one statement list with that text; expansions are followed through parser, scopes and execution |
| C97 | macro bodies in a small language with scopes, where the scope of a variable begins before its initialiser; names looked up in the innermost scope | case analysis over the macros; refutations for each of the captured names |
| C98 | the constructors of the macro as candidates, ranked by reference binding, templates and partial ordering | case analysis over types and value categories |
| C99 | the test programs as programs of the test language over the component models | evaluation; the runs are followed symbolically where clock, generator or stack are parameters |
| C100 | `num_get` for unsigned types (negation modulo `max + 1` after a minus sign) under the model of `read_sequence` | the extraction is that of an integer from `-max` to `max` followed by a reduction; then C20 for the item grammar |
| C101 | handles in threads: atomic use counts, non-atomic reads, writes and deletions of objects, each a step of a schedule; queues by which handles are sent | invariant (count = pointers held, queued and in flight; an object without pointers has exactly one deleter; an object about to be written has one pointer); simulation by threads with values |
| C102 | rounding to nearest even in a binary format of precision `p` without bounds of the exponent, over `Rat`; the four cases of `duration_cast` to `duration<double>` | nearest by comparing multiples of the distance of neighbours; order from nearest; the rest from exactness on integers up to `2^p` and the relative error |
| C103 | one call site visited by threads; the test, the store and the print are three steps; schedules are arbitrary lists of threads | invariants over schedules; the witness for the negation is a schedule in three sweeps over all threads |
| C104 | threads with lists of calls; reading and writing the engine are two steps | serial schedules by induction, two steps at a time, against the draws of C67; bounds by an invariant; the negation by running three schedules |
| C105 | the integer and floating point types on an arbitrary platform (widths and signs as parameters), promotions and usual arithmetic conversions as in the standard; values as `Rat`, conversions modulo `2^w` or by rounding (C102) | the common type depends on three comparisons of widths only, so that associativity is a finite check of these; values by comparing widths |
| C106 | overload sets with five kinds of parameters; well-formedness of an operator by overload resolution for value categories | the categories agree for lvalue references; const references and copies accept all categories |
| C107 | loops and `std::lower_bound` written with the operators of C46 and C47; the required and provided operators as lists | induction on the number of elements, resp. turns |
| C108 | the client `if(!has_label(x)) put(x,f(x)); get(x)` on the model of C01 | the cache holds the most recent labels; potential function against arbitrary strategies |
| C109 | several cache variables with globally unique node identities; implicit copy and move operations | refinement of variables that hold abstract caches; disjoint nodes |
| C110 | overload resolution among the constructors of `Handle` by static class, constness and value category; objects with data per class | case analysis of the candidates |
| C111 | objects, control blocks with the class they delete as, handles | invariants: one block per object, alive iff owned; a block without owners has had its object deleted |
| C112 | `std::cerr` as a string with a state; `_write` as arbitrary user code | computation of the text |
| C113 | `std::num_put` and `std::num_get` with digit grouping, below the reader and writer of C82 | a grouped number is consistent and read back; the run of digits and commas of a list ends at the bracket or after a comma |
| C114 | preprocessing tokens; collection of arguments, stringizing, substitution | texts with matching parentheses are parts without bare commas, joined by commas; unescaping inverts escaping |
| C115 | the word and list writers and readers on one string stream, with its `boolalpha` flag | reading `true`/`false` meets the contract of an item reader up to eofbit, which the list reader ignores; induction over the items |
| C116 | include lines, guards, definitions at namespace scope with their linkage; the one definition rule | induction over the preprocessor: each header contributes its definitions once per unit; pairwise compatibility of definitions of different units |
| C117 | include lines, guards, using-declarations and other names that a header needs when it is read; a standard library as the names that each header declares | the tokens below a header have been read once it has been included; a check of the lines of each header by computation, lifted to all lists by induction |
| C118 | `SharedArray` operations in threads, split into loads and stores of the counter | number of arrays = counter + arrays not yet counted, while no two threads use one counter; for copies alone counter ≤ number of arrays |
| C119 | `read_sequence` with `>>` for `char` and `std::string` | induction on the list as in C82; what is read holds no blanks, and a string read is longer than the one written |
| C120 | `os << double` (`%g`), `is >> double` and vectors of them | rounding to P digits finds a near decimal; distinct doubles are at least 2^-p apart relatively; parsing of the three text forms; then as C82 |
| C121 | `get`, `has_label`, `age` of the cache by threads, memory access by memory access | invariant of the calls in progress against an order of whole calls; lookups change ages only; counterexample for every capacity built on the gap of C07 |
| C122 | the model of C111 with calls that fail while making the object or its control block, and outside objects that are moved from | one call: case analysis; histories: the invariant of C111 |
| C123 | factories as programs that evaluate, construct, copy, move, assign and destroy variables; changing a variable that is being evaluated is undefined | the invariant of C71 with the objects made so far; calls in progress have made none |
| C124 | `apply` and `elementwise` over a vector whose iterators carry a generation; the function performs vector operations | induction on the passes against a relation that visits the elements present in their turn |
| C125 | `Handle<X>` and `Handle<const X>` on shared objects; the overloads of `_make_unique` and `dynamic_handle_extract` found by overload resolution | case analysis; histories by induction |
| C126 | objects, temporaries that live to the end of the full-expression and references to objects or their parts; binding of the kinds of parameters | case analysis; lists of arguments and later steps by induction |
| C127 | the bodies of container.hpp as programs of a small language, and a type checker that collects what the element types have to provide | evaluation of the checker for each function; sets of needs compared |
| C128 | initialisers of the units run in any order, with the engine that the linker's choice of `get()` uses | invariant of the schedule; first use of another unit's engine as counterexample |
| C129 | as C120, with the bounds of the exponent, signed zeros, infinities and NaN | reading a vector is total: each element is replaced by what is read for it or the whole throws; rounding is monotone and exact on the grid; the limit above which numbers overflow; the 17 small precisions are evaluated |
| C130 | the idiom `if (not has_label(x)) put(x,body(x)); return get(x);` with bodies that call it again | one induction on the depth for both cases: labels added have lower rank, so `put` does not meet its own label; nothing is evicted if all arguments fit; Fibonacci numbers as instances |
| C131 | subobjects as a class with the path from the whole object or a virtual base; `dynamic_cast` by searching the list of subobjects, `Wrapper` as a class with two bases | lists of subobjects against an inductive relation; a subobject has the same parts as a whole object of its class (injection), so that static and dynamic casts agree |
| C132 | codes as integers with their types on any platform (`Arith`), implicit conversion to the code type, promotion by `switch`, usual conversions by `==`; when the instantiation is well-formed | conversion is the identity exactly on the range of a type; conversion to the common type is injective on the promoted range |
| C133 | `std::num_put` and `std::num_get` for integers with `basefield`, `showbase`, `uppercase`, `showpos`, below the reader and writer of C82; `Outcome`: what a nested vector with misread items gives | digits in one base read in another give the same number exactly if the bases agree or there is one digit common to both; a text without blanks and delimiters is read whole or ends the list |
| C134 | every operation of the stream followed by the test of the mask; the readers of lists and words with the state they leave | simulation: after each operation the two runs agree, or the one with the mask has thrown and the other is going to throw or is undefined |
| C135 | the readers of C82, C134 and C13–C15; the fuel is shown to suffice | the text to come gets shorter with every turn of the loop, or the stream is at its end and the next turn throws |
| C136 | the same readers with `skipws` off | simulation: the run without skipping agrees with the other until a blank comes; then it is rejected at once, or by the list around it |
| C137 | `operator<` of words, and of `std::vector`, `std::list`, `std::pair`, `std::set`, `std::map` as the standard defines them | the lexicographic order of a strict weak order is one; two sorted lists with the same elements are equivalent one by one; induction over the nesting of types |
| C138 | the writers as lists of output operations, on streams with a buffer that takes a number of characters, exception masks, and any policy of the sentry | the lists run on unlimited streams are the writers of `Seq/Model.lean`; simulation between the stream that fails and the unlimited one |
| C139 | threads that memoise a function through a cache, one call at a time | the abstract cache follows every call; invariants for few labels and for one lock; for the refutation, induction over the accesses of the other thread |
| C140 | range-for loops and iterators of SharedArray | induction over the rest of the buffer; the invariant of C33 gives the life of the buffer |
| C141 | field widths and adjustment of containers and words | the writers as lists of operations (C138); the first text takes the width; lengths refute the rest |
| C142 | dynamic_pointer_extract in histories of handles | the invariant of C72 is kept by a new owner of a live object |
| C143 | ResultOf and InvokeResult | the adjustment of parameter types; a program in which just one call is possible separates the two |
| C144 | types of iterators and elements; decay, qualification and derived-to-base conversions of pointers | conversions of pointers keep the number of levels, so an element is never a pointer to a pointer to itself |
| C145 | values as trees; histories of copies, destructions and texts with a budget of steps that succeed | every run follows the history without exceptions up to the step that throws; then only destructors run; what is lost is found by induction over the tree |
| C146 | numbers of `p` bits as rationals (`Double`); engines as any functions that give words | rounding is monotone and exact on representable numbers; neighbours differ by a relative `2^-p`; refutations by runs |
| C147 | the distribution of libstdc++ as a function of a list of words; conversions between signed and unsigned types as remainders | counting the multiples of `r` in an interval of `r*q` numbers; `omega` |
| C148 | `std::mt19937` by its recurrence on words of 32 bits; the seed as in the constructor | every step of the engine is injective (bit by bit); the recurrence is solved backwards |
| C149 | differences and sizes of rounded numbers as in C102 and C129, of `int` and of unsigned numbers; `abs` of `std` or of C | monotone rounding; numbers within a factor of two have a representable difference (Sterbenz) |
| C150 | the comparison macros on constants of the integer types of C105, on any platform | what the common type makes of a value, by its sign |
| C151 | pointers as addresses in a memory of characters; `operator<<` of libstdc++ for strings and addresses | hexadecimal digits are read back; a text is split at its first or last comma |
| C92, C93 | macro arguments as sequences of operands and infix operators, read by a precedence parser | the parser gives the only tree of the C++ grammar with that text; messages are followed along the left spine of the tree; ill-formedness from a type discipline with streams, numbers and strings |
| C90, C91 | the test macros with the text they write as lists of tokens | the model without texts is recovered by erasure; reports are followed by rules for what a macro adds to `std::cerr`; texts are compared character by character |
| C88 | iterators of `Array` as pointers into blocks, loops as a relation | the storage of an array is followed through every operation |

## What the statuses in MANIFEST.json mean

* `proved`: the theorems together say what the property says, for everything it is quantified over. The note names what the
  quantification leaves to another property (threads, exceptions, other locales).
* `partial`: the property is false as it stands, and a theorem `..._refuted` shows it by a witness, while the theorems `..._partial`
  hold under premises that the property does not have; or the property is not known to be false but its theorems have such premises.
  The note says which.

## Trusted base

### Logic

* Lean's kernel (4.33.0), and the reading of the theorem statements.
* No axioms of our own, no `sorry`, no `native_decide`, no `bv_decide`. Mathlib is not imported.
* Concrete runs in examples and refutations use `decide`, `rfl` or `decide +kernel`, all checked by the kernel.
* The axioms of every theorem claimed in `MANIFEST.json`, as told by `#print axioms`
  (table made by `tools/gen_axioms.py`, names without the prefix `Helper.`):

<!-- axioms -->
**No axioms** (22 theorems): `LRU.C01_queries`, `LRU.C04_hasLabel_call`, `LRU.C06_putRef_refuted`, `LRU.C07_order_refuted`, `BinWord.C17_setBack_empty`, `MapC.C41_restrictKeys_refuted`, `ListC.C43_appendElem`, `Range.C45_range1`, `Iter.C46_overflow`, `Macro.C61_ndebug`, `Macro.C61_equal_refuted`, `StackTrace.C66_disabled`, `Writable.C68_interface`, `Writable.C68_chain`, `Writable.C68_chainTemp_partial`, `Writable.C68_chainTemp_refuted`, `Writable.C76_refuted`, `Writable.C76_effect_partial`, `Meta.C83_explicit`, `Lookup.C86_refuted`, `Seq.C119_refuted`, `Iter.PairPrint.C151_commas_refuted`.

**`Quot.sound`** (1 theorems): `Seq.C87_same`.

**`propext`** (163 theorems): `LRU.C02_queriesAreNotUses`, `LRU.C05_construct`, `LRU.C06_putLabel_refuted`, `LRU.C07_ub_refuted`, `BinWord.C12_appendBit`, `BinWord.C12_self_refuted`, `BinWord.C14_blank_refuted`, `BinWord.C15_written`, `BinWord.C16_refuted`, `BinWord.C16_format_partial`, `Seq.C18_writeSequence`, `Seq.C18_writePointerSequence`, `Seq.C18_writePointerSequence_null`, `Seq.C18_printVector`, `Seq.C18_printSet`, `Seq.C18_printList`, `Seq.C21_blankInput_refuted`, `Seq.C21_notGood_refuted`, `Seq.C22_writeMapSequence`, `Seq.C22_printMap`, `Seq.C22_printPair`, `Seq.C22_refuted`, `Arr.C25_refuted`, `Arr.C27_undefined`, `Arr.C29_refuted`, `Shared.C34_refuted`, `Shared.C34_refuted_example`, `SetC.C36_removeList`, `MapC.C41_removeKeys`, `ListC.C43_catenate`, `ListC.C44_pure`, `ListC.C44_sizes`, `ListC.Changing.C124_apply_refuted`, `Iter.C47_forward`, `Iter.C47_pair`, `Iter.C47_pair_failure`, `Lazy.C48_first`, `Lazy.C49_null`, `Meta.C59_isOneOf`, `Meta.C59_indexOf_none`, `Meta.C59_first_second`, `TupleC.C60_pair`, `TupleC.C60_swap`, `TupleC.C60_refs`, `TupleC.C60_refs_noSwap`, `TupleC.C60_tuple_size`, `TupleC.C60_tupleRefs_size`, `TupleC.C60_tupleRefs`, `Macro.C61_asserts`, `Macro.C61_equal`, `Macro.C61_operands`, `Macro.C61_fail`, `Macro.C61_iff`, `Macro.C61_msg_refuted`, `TestC.C63_call`, `TestC.C63_other`, `TestC.C65_rel`, `TestC.C65_pass_partial`, `TestC.C65_pass2_partial`, `TestC.C65_fail_partial`, `TestC.C65_compare_refuted`, `TestC.C65_predicate_refuted`, `TestC.C65_verdict_refuted`, `Randomiser.C67_make`, `Randomiser.C67_int`, `Randomiser.C67_real_partial`, `Randomiser.C67_shared_partial`, `Writable.C68_temporary`, `Seq.C69_text`, `Seq.C69_string`, `Randomiser.C75_refuted`, `Randomiser.C75_own_partial`, `Writable.C76_exact_partial`, `Arr.C77_lost`, `Shared.C78_counter_partial`, `Shared.C78_buffer_refuted`, `ListC.C80_count_partial`, `ListC.C80_count_refuted`, `SetC.C81_no_fault`, `SetC.C81_removeList`, `SetC.C81_removeKeys`, `Seq.C82_item`, `Seq.C82_text`, `Meta.C83_scalar_refuted`, `Meta.C83_refuted`, `Meta.C83_void_refuted`, `Overload.C84_list_partial`, `Overload.C84_array_partial`, `Overload.C84_list_refuted`, `Overload.C85_array_partial`, `Overload.C85_array_refuted`, `Overload.C85_list`, `Overload.C85_arith`, `Overload.C85_arrayTypes_partial`, `Overload.C85_list_refuted`, `Overload.C85_list_partial`, `Lookup.C86_vectors_partial`, `Seq.C87_unique`, `Seq.C87_throw`, `Seq.C87_undefined`, `Lazy.C89_endless`, `Lazy.C89_refuted`, `Lazy.C89_depth`, `Lazy.C89_plain`, `TestC.C90_refuted`, `TestC.C91_call_ok`, `TestC.C91_values_refuted`, `MText.C93_within_refuted`, `MText.C93_equal_refuted`, `TestC.C94_refuted`, `Names.C97_grid_partial`, `Using.C98_viable`, `Tests.C99_lru`, `Tests.C99_lru_wrong`, `Tests.C99_array`, `Randomiser.Threads.C104_overlap_refuted`, `Arith.C105_inplace`, `Meta.Operators.C106_references_partial`, `Meta.Operators.C106_refuted`, `Iter.C107_forward_operators`, `Iter.C107_random_refuted`, `LRU.C109_others`, `Handle.C110_makeHandle_refuted`, `MText.Args.C114_args_partial`, `MText.Args.C114_variadic`, `MText.Args.C114_which`, `BinWord.C115_refuted`, `Link.C116_refuted`, `Shared.Threads.C118_freed`, `LRU.Threads.C121_refuted`, `LRU.Threads.C121_age_refuted`, `Handle.Const.C125_overloads`, `Handle.Const.C125_reference_refuted`, `Lifetime.C126_cstr_refuted`, `Lifetime.C126_get_refuted`, `Lifetime.C126_accept_refuted`, `Wf.C127_calls`, `Randomiser.Statics.C128_progress`, `LRU.Recursive.C130_refs_refuted`, `LRU.Recursive.C130_three_refuted`, `LRU.Recursive.C130_refuted`, `Variant.C132_refuted`, `Seq.Mask.C134_notGood`, `Seq.Mask.C134_defined_refuted`, `Seq.Mask.C134_word_blank`, `Seq.Raw.C136_start`, `Keys.C137_pair`, `Keys.C137_refuted`, `Seq.Sink.C138_notGood`, `Seq.Sink.C138_failbit_silent`, `Seq.Sink.C138_word`, `Seq.Sink.C138_refuted`, `Shared.C140_dangles`, `Seq.Adjust.C141_first`, `Seq.Adjust.C141_right`, `Meta.ResultOf.C143_adjusted`, `Meta.ResultOf.C143_void`, `Meta.ResultOf.C143_const_refuted`, `Meta.ResultOf.C143_function_refuted`, `Seq.Copies.C145_refuted`, `Seq.Copies.C145_lost_refuted`, `Iter.PairPrint.C151_defined_partial`, `Iter.PairPrint.C151_end_refuted`.

**`Quot.sound`, `propext`** (250 theorems): `LRU.C07_capacityOne_partial`, `BinWord.C08_lexicographic`, `BinWord.C08_irrefl`, `BinWord.C08_trans`, `BinWord.C08_trichotomy`, `BinWord.C09_isPrefix`, `BinWord.C09_refl`, `BinWord.C09_antisymm`, `BinWord.C09_trans`, `BinWord.C12_append_partial`, `BinWord.C12_self_empty`, `BinWord.C17_setBack`, `Seq.C22_writeMapPointerSequence`, `Seq.C22_printTuple_partial`, `Arr.C27_access`, `Arr.C28_eq`, `Arr.C28_eq_iff`, `Arr.C30_refuted`, `Arr.C32_refuted`, `SetC.C35_contains`, `SetC.C35_subset`, `SetC.C35_disjoint`, `SetC.C36_removeElem`, `SetC.C37_refuted`, `MapC.C39_get`, `MapC.C39_index`, `MapC.C39_assign`, `ListC.C43_diverges_refuted`, `ListC.C43_selfEmpty`, `ListC.C43_construct`, `ListC.C44_apply_partial`, `ListC.C44_elementwise2`, `Range.C45_visits`, `Range.C45_forward`, `Range.C45_wraps`, `Iter.C46_diff`, `Iter.C46_move`, `Iter.C47_iterate`, `Lazy.C48_onlyEval`, `Lazy.C48_construct`, `Lazy.C49_retries`, `Lazy.C49_failing`, `Lazy.C49_defined`, `Lazy.C49_empty`, `Lazy.Threads.C50_refuted`, `Lazy.Threads.C50_race_refuted`, `Lazy.Threads.C50_serial_partial`, `Lazy.Threads.C50_evaluated_partial`, `Lazy.C51_after`, `Lazy.C51_before`, `Lazy.C51_move`, `Stopwatch.C52_forms`, `Stopwatch.C52_unique`, `Stopwatch.C52_zero`, `Stopwatch.C52_stable`, `Stopwatch.C53_monotone`, `Handle.C54_change`, `Handle.C54_managed`, `Handle.C54_throw`, `Handle.C54_agree`, `Handle.C55_after_ref_partial`, `Handle.C56_obtained`, `Handle.C57_cast_partial`, `Handle.Hierarchy.C57_refuted`, `Variant.C58_accept`, `Variant.C58_alternative_partial`, `Variant.C58_holds`, `Variant.C58_wellFormed`, `Variant.C58_narrowing`, `Variant.C58_refuted`, `Meta.C59_areAllSame`, `Meta.C59_indexOf`, `TupleC.C60_tuple`, `Macro.C62_history_partial`, `Macro.C62_throw_refuted`, `TestC.C63_anyNumber`, `StackTrace.C66_named_partial`, `StackTrace.C66_count_partial`, `StackTrace.C66_noName_refuted`, `StackTrace.C66_memory_refuted`, `StackTrace.C66_noInfo_partial`, `Randomiser.C67_units_refuted`, `Writable.C68_texts`, `Seq.C69_int_injective`, `Seq.C69_int_numeral`, `Arr.C70_reversed`, `Arr.Reversed.C70_ndebug`, `Handle.C72_read_any`, `Variant.C73_refuted`, `Variant.C73_const_partial`, `TestC.C74_actual`, `TestC.C74_term_partial`, `TestC.C74_refuted`, `Arr.C77_refuted`, `Arr.C79_same`, `Arr.C79_refuted`, `Seq.C82_same`, `Meta.C83_concept`, `Meta.C83_trait_partial`, `Overload.C84_ranks`, `Overload.C84_array_refuted`, `Overload.C84_value`, `Lookup.C86_assoc`, `Lookup.C86_exact`, `Lookup.C86_library_partial`, `Lookup.C86_own_partial`, `Lookup.C86_tuple_refuted`, `Seq.C87_blankOpening`, `Arr.C88_loop`, `Arr.C88_ends`, `TestC.C90_erase`, `MText.C93_equal_cond`, `TestC.C94_failures`, `TestC.C95_refuted`, `Names.C97_notStream`, `Names.C97_grid_refuted`, `Names.C97_vector_partial`, `Names.C97_vector_refuted`, `Using.C98_direct_partial`, `Using.C98_implicit_partial`, `Using.C98_explicit_refuted`, `Using.C98_trait_refuted`, `Using.C98_copy_partial`, `Using.C98_copy_refuted`, `Using.C98_derived_refuted`, `Using.C98_members_refuted`, `Using.C98_redundant`, `Tests.C99_labels`, `Tests.C99_randomiser`, `Tests.C99_trace_partial`, `Tests.C99_trace_refuted`, `Tests.C99_exceptions`, `Handle.Threads.C101_extract_refuted`, `Macro.Threads.C103_first_partial`, `Macro.Threads.C103_all_refuted`, `Randomiser.Threads.C104_serial_partial`, `Randomiser.Threads.C104_bounds`, `Arith.C105_exists`, `Meta.Operators.C106_const_partial`, `Iter.C107_forward`, `Iter.C107_lowerBound`, `Iter.C107_arrow`, `LRU.C108_none`, `Handle.C110_actual`, `Handle.C110_faithful_partial`, `Handle.C110_faithful_iff`, `Handle.C110_refuted`, `Handle.C110_compiles`, `Handle.C110_makeHandle_partial`, `Handle.C110_makeHandle_iff`, `Handle.Delete.C111_virtual_partial`, `Handle.Delete.C111_const_partial`, `Handle.Delete.C111_nonvirtual_refuted`, `Handle.Delete.C111_raw_refuted`, `Handle.C112_cast_partial`, `Handle.C112_refuted`, `MText.Args.C114_reject`, `MText.Args.C114_text`, `Link.C117_depth`, `Shared.Threads.C118_copies_partial`, `Shared.Threads.C118_refuted`, `Shared.Threads.C118_leak_refuted`, `Shared.Threads.C118_atomic_refuted`, `Seq.C119_chars_only`, `LRU.Threads.C121_race_refuted`, `LRU.Threads.C121_readers`, `LRU.Threads.C121_noGet_partial`, `Handle.Throw.C122_throw_partial`, `Handle.Throw.C122_history_partial`, `Handle.Throw.C122_noLeak`, `Handle.Throw.C122_const_partial`, `Handle.Throw.C122_faultless`, `Handle.Throw.C122_moved_refuted`, `Handle.Throw.C122_nonvirtual_refuted`, `Lazy.Busy.C123_made`, `Lazy.Busy.C123_copy`, `Lazy.Busy.C123_change_refuted`, `ListC.Changing.C124_elementwise`, `ListC.Changing.C124_length`, `ListC.Changing.C124_two`, `ListC.Changing.C124_shrink_refuted`, `ListC.Changing.C124_append_refuted`, `Handle.Const.C125_const_partial`, `Handle.Const.C125_assign`, `Handle.Const.C125_constVar`, `Handle.Const.C125_extract_refuted`, `Lifetime.C126_tie_refuted`, `Wf.C127_needs`, `Wf.C127_ordinary_partial`, `Wf.C127_one_partial`, `Wf.C127_refuted`, `Wf.C127_moveOnly`, `Wf.C127_noDefault`, `Wf.C127_own`, `Wf.C127_unsigned_refuted`, `Wf.C127_makeListArray`, `Randomiser.Statics.C128_one`, `Randomiser.Statics.C128_refuted`, `Randomiser.Statics.C128_third_refuted`, `LRU.Recursive.C130_exponential`, `Handle.Hierarchy.C131_needed`, `Handle.Hierarchy.C131_back_refuted`, `Handle.Hierarchy.C131_private_refuted`, `Handle.Hierarchy.C131_illFormed_refuted`, `Handle.Hierarchy.C131_extract_refuted`, `Variant.C132_compiles`, `Variant.C132_exact`, `Seq.Format.C133_misread_refuted`, `Seq.Format.C133_fill_refuted`, `Seq.Format.C133_default_text`, `Seq.Format.C133_letters`, `Seq.Mask.C134_same`, `Seq.Mask.C134_contents`, `Seq.Mask.C134_sameWord`, `Seq.Raw.C136_chars_refuted`, `Seq.Sink.C138_writers`, `Seq.Sink.C138_prefix`, `Seq.Sink.C138_fits`, `Seq.Sink.C138_fails`, `Seq.Sink.C138_flags`, `Seq.Sink.C138_failbit`, `Seq.Sink.C138_failbit_last`, `Seq.Sink.C138_raise`, `Seq.Sink.C138_element`, `Seq.Adjust.C141_iff_partial`, `Seq.Adjust.C141_containers`, `Seq.Adjust.C141_refuted`, `Meta.ResultOf.C143_iff_partial`, `Iter.PairIt.C144_iff_partial`, `Iter.PairIt.C144_pointers_refuted`, `Iter.PairIt.C144_classes_refuted`, `Seq.Copies.C145_ok_partial`, `Seq.Copies.C145_defined_partial`, `Seq.Copies.C145_text`, `Seq.Copies.C145_count`, `Seq.Copies.C145_destroyed`, `Seq.Copies.C145_thrown_partial`, `Seq.Copies.C145_safe`, `Seq.Copies.C145_prefix`, `Seq.Copies.C145_nested`, `Seq.Copies.C145_writers`, `Seq.Copies.C145_shared_refuted`, `Randomiser.Ints.C147_below`, `Randomiser.Ints.C147_half`, `Randomiser.Seed.C148_words`, `Randomiser.Seed.C148_default`, `TestC.Within.C149_unsigned_refuted`, `Iter.PairPrint.C151_string`, `Iter.PairPrint.C151_text`, `Iter.PairPrint.C151_copies_refuted`.

**`Classical.choice`, `Quot.sound`, `propext`** (524 theorems): `LRU.C01_size`, `LRU.C02_notFull`, `LRU.C02_evictsLeastRecentlyUsed`, `LRU.C03_lists_exists`, `LRU.C03_age`, `LRU.C03_ages_permutation`, `LRU.C03_justUsed`, `LRU.C03_age_lt`, `LRU.C04_present`, `LRU.C04_get`, `LRU.C05_failingCall`, `LRU.C05_outcomes`, `LRU.C06_stable`, `LRU.C06_dangles`, `LRU.C06_putRef_partial`, `LRU.C06_putLabel_partial`, `LRU.C07_contents_partial`, `LRU.C07_throwingPut_partial`, `LRU.C07_undefined_iff_partial`, `LRU.C07_every_capacity_refuted`, `LRU.C07_repair_partial`, `BinWord.C10_isSubword`, `BinWord.C11_general`, `BinWord.C11_erasePrefix_partial`, `BinWord.C11_refuted`, `BinWord.C13_roundTrip`, `BinWord.C13_bracketed`, `BinWord.C14_run_partial`, `BinWord.C14_bracket_partial`, `BinWord.C15_general`, `BinWord.C15_iff_partial`, `BinWord.C15_refuted`, `BinWord.C17_bytes`, `Seq.C19_roundTrip`, `Seq.C19_vector`, `Seq.C19_sameDelimiters`, `Seq.C20_readSequence`, `Seq.C20_unique`, `Seq.C20_readVector_int`, `Seq.C21_noIndeterminate_partial`, `Arr.C23_values_partial`, `Arr.C23_moved_partial`, `Arr.C23_refuted`, `Arr.C24_copy`, `Arr.C24_independent`, `Arr.C24_swap`, `Arr.C25_noLeak_partial`, `Arr.C25_owned_partial`, `Arr.C25_balance`, `Arr.C25_moveAssign_leaks`, `Arr.C26_resize_partial`, `Arr.C26_reallocate_partial`, `Arr.C26_refuted`, `Arr.C27_write`, `Arr.C29_destructible_partial`, `Arr.C29_strong_partial`, `Arr.C29_iff_partial`, `Arr.C29_danger_refuted`, `Arr.C29_alloc_refuted`, `Arr.C30_fits_partial`, `Arr.C31_fill`, `Arr.C31_fillFrom`, `Arr.C31_assign_partial`, `Arr.C31_assign_refuted`, `Arr.C32_complement_partial`, `Arr.C32_undefined`, `Arr.C32_iff`, `Shared.C33_shared`, `Shared.C33_freed`, `SetC.C36_adjoin`, `SetC.C36_join`, `SetC.C36_remove`, `SetC.C36_restrict`, `SetC.C36_intersection`, `SetC.C36_intersectionList`, `SetC.C36_difference`, `SetC.C37_actual`, `SetC.C37_iff_partial`, `SetC.C38_increasing`, `SetC.C38_makeSet`, `SetC.C38_roundTrip`, `MapC.C39_insert`, `MapC.C40_adjoin`, `MapC.C40_join`, `MapC.C41_keys`, `MapC.C41_values`, `MapC.C41_restrictKeys_partial`, `SetC.C42_unique`, `SetC.C42_duplicate`, `SetC.C42_unique_iff`, `ListC.C43_append_partial`, `ListC.C44_ndebug`, `Iter.C46_compare`, `Iter.C46_laws`, `Lazy.C48_later`, `Lazy.C48_reachable`, `Lazy.C51_own`, `Lazy.C51_different`, `Stopwatch.C52_duration`, `Stopwatch.C53_accurate`, `Stopwatch.C53_elapsed`, `Stopwatch.C53_backwards`, `Handle.C54_history`, `Handle.C55_refuted`, `Handle.C55_actual`, `Handle.C55_unshared_partial`, `Handle.C56_refuted`, `Handle.C56_partial`, `Handle.C57_extract_partial`, `Handle.C57_extractOp_partial`, `Handle.Hierarchy.C131_classes`, `TupleC.C60_get`, `Macro.C62_once_partial`, `TestC.C63_count_partial`, `TestC.C63_overflow_refuted`, `TestC.C64_status`, `TestC.C64_refuted`, `TestC.C64_small_partial`, `TestC.C64_exact`, `Randomiser.C67_real_refuted`, `Arr.Reversed.C70_assign`, `Lazy.C71_ownership`, `Handle.C72_lifetime`, `Handle.C72_read`, `Handle.C72_last`, `Arr.C77_uninitialised_partial`, `Shared.C78_nothing_throws_partial`, `Shared.C78_element_refuted`, `Shared.C78_element_beyond_partial`, `Arr.C79_values_partial`, `ListC.C80_linked`, `SetC.C81_adjoin`, `SetC.C81_sweep`, `SetC.C81_mapAdjoin`, `SetC.C81_append`, `SetC.C81_append_ends`, `SetC.C81_append_other`, `Seq.C82_ints`, `Seq.C82_words_partial`, `Seq.C82_words_refuted`, `Meta.C83_isInvocable_partial`, `Seq.C87_contents_partial`, `Seq.C87_throws_partial`, `Seq.C87_refuted`, `Arr.C88_held`, `Arr.C88_released`, `Arr.C88_dropped`, `Arr.C88_history`, `Arr.C88_update`, `Lazy.C89_exact`, `Lazy.C89_deterministic`, `Lazy.C89_client`, `Lazy.C89_reentrant`, `Lazy.C89_acyclic_partial`, `TestC.C90_reports_partial`, `TestC.C90_atMost`, `TestC.C90_silent`, `TestC.C91_assert`, `TestC.C91_check_partial`, `TestC.C91_same_partial`, `TestC.C91_sameAs_partial`, `TestC.C91_equal_partial`, `TestC.C91_notEqual_partial`, `TestC.C91_equals_partial`, `TestC.C91_within_partial`, `TestC.C91_less_partial`, `TestC.C91_unaryPredicate_partial`, `TestC.C91_binaryPredicate_partial`, `TestC.C91_compare_partial`, `TestC.C91_resultCompare_partial`, `TestC.C91_checkWarn_partial`, `TestC.C91_staticAssert`, `TestC.C91_title`, `TestC.C91_comment`, `TestC.C91_warn_partial`, `TestC.C91_notify_partial`, `TestC.C91_print`, `TestC.C91_skip`, `TestC.C91_construct`, `TestC.C91_try`, `TestC.C91_try_ok`, `TestC.C91_execute`, `TestC.C91_call`, `TestC.C91_testClass`, `TestC.C91_evaluate`, `TestC.C91_evaluate_throws`, `TestC.C91_assign`, `TestC.C91_assign_throws`, `TestC.C91_declare_partial`, `TestC.C91_declare_throws_partial`, `TestC.C91_throws_none`, `TestC.C91_throws_expected`, `TestC.C91_throws_other`, `TestC.C91_fail_none`, `TestC.C91_fail_thrown`, `MText.C92_assert`, `MText.C92_precondition`, `MText.C92_debugPrecondition`, `MText.C92_throw_partial`, `MText.C92_msg_partial`, `MText.C92_tests`, `MText.C92_illFormed`, `MText.C92_cond_types`, `MText.C92_stream_true`, `MText.C92_refuted`, `MText.C93_grammar`, `MText.C93_productions`, `MText.C93_unit_iff`, `MText.C93_within_iff`, `MText.C93_tolerance_iff`, `MText.C93_equal_partial`, `MText.C93_equal_shifts`, `MText.C93_equal_first`, `MText.C93_equal_second`, `MText.C93_note_partial`, `MText.C93_title_partial`, `MText.C93_note_weak`, `TestC.C94_passes_iff`, `TestC.C95_defined_iff`, `TestC.C95_result_partial`, `TestC.C95_again_partial`, `Stmts.C96_reading`, `Stmts.C96_compiles_iff`, `Stmts.C96_meaning_partial`, `Stmts.C96_calls_partial`, `Stmts.C96_else_refuted`, `Stmts.C96_two_refuted`, `Stmts.C96_once_if_refuted`, `Stmts.C96_once_if_silent`, `Stmts.C96_once_else_taken`, `Stmts.C96_construct_if_refuted`, `Stmts.C96_declare_if_refuted`, `Stmts.C96_construct_else_refuted`, `Stmts.C96_scopes`, `Names.C97_clean_partial`, `Names.C97_self_refuted`, `Names.C97_auto_refuted`, `Names.C97_within_refuted`, `Names.C97_result_refuted`, `Names.C97_stream_refuted`, `Names.C97_ss_refuted`, `Names.C97_message_refuted`, `Names.C97_predicate_refuted`, `Names.C97_streamName_refuted`, `Names.C97_and_partial`, `Tests.C99_container`, `Tests.C99_lazy`, `Tests.C99_stopwatch_partial`, `Tests.C99_stopwatch_refuted`, `Seq.C100_read`, `Seq.C100_roundTrip`, `Seq.C100_vector`, `Seq.C100_plus_partial`, `Seq.C100_negative_refuted`, `Handle.Threads.C101_noRace_partial`, `Handle.Threads.C101_values_partial`, `Handle.Threads.C101_freed_partial`, `Handle.Threads.C101_alone_partial`, `Handle.Threads.C101_finish_partial`, `Double.C102_nearest`, `Double.C102_exact`, `Double.C102_even`, `Double.C102_error`, `Double.C102_mono`, `Double.C102_once_partial`, `Double.C102_ratio_partial`, `Double.C102_order`, `Double.C102_sign`, `Double.C102_distinct_partial`, `Double.C102_bound`, `Double.C102_elapsed_partial`, `Double.C102_clicks`, `Double.C102_twice_refuted`, `Macro.Threads.C103_perThread`, `Macro.Threads.C103_notLost`, `Arith.C105_comm`, `Arith.C105_assoc`, `Arith.C105_closed`, `Arith.C105_conv`, `Arith.C105_values_partial`, `Arith.C105_float_partial`, `Arith.C105_double`, `Arith.C105_less_partial`, `Arith.C105_sum_partial`, `Arith.C105_product_partial`, `Arith.C105_small`, `Arith.C105_refuted`, `Iter.C107_each`, `Iter.C107_back`, `LRU.C108_value`, `LRU.C108_hit`, `LRU.C108_inclusion`, `LRU.C108_once`, `LRU.C108_competitive`, `LRU.C108_strategy`, `LRU.C109_values`, `LRU.C109_refs`, `Handle.C110_part`, `Handle.Delete.C111_once`, `Handle.Delete.C111_raw_actual`, `Handle.C112_extract_partial`, `Handle.C112_failed`, `Handle.C112_thrown`, `Seq.C113_ints_partial`, `Seq.C113_comma_refuted`, `Seq.C113_comma_partial`, `Seq.C113_misread`, `Seq.C113_leading`, `Seq.C113_refuted`, `MText.Args.C114_arity`, `MText.Args.C114_throw`, `MText.Args.C114_throw_str`, `MText.Args.C114_quoted`, `MText.Args.C114_refuted`, `BinWord.C115_readBack_partial`, `BinWord.C115_grammar`, `BinWord.C115_same`, `BinWord.C115_other`, `Link.C116_links_partial`, `Link.C116_others_partial`, `Link.C116_unit`, `Link.C116_engines`, `Link.C116_oneDefinition`, `Link.C117_order_partial`, `Link.C117_refuted`, `Link.C117_others_partial`, `Shared.Threads.C118_exclusive_partial`, `Shared.Threads.C118_locked_partial`, `Shared.Threads.C118_separate_partial`, `Seq.C119_chars_partial`, `Seq.C119_strings_refuted`, `Seq.C119_strings_throw`, `Double.C120_read`, `Double.C120_nearest`, `Double.C120_error`, `Double.C120_few`, `Double.C120_stable`, `Double.C120_many`, `Double.C120_seventeen_partial`, `Double.C120_default_partial`, `Double.C120_refuted`, `Double.C120_sixteen_refuted`, `Double.C120_comma_refuted`, `Double.C120_numerals`, `Double.C120_noNumber`, `LRU.Threads.C121_locked_partial`, `LRU.Threads.C121_values`, `LRU.Threads.C121_every_capacity_refuted`, `Handle.Throw.C122_moved`, `Lazy.Busy.C123_ownership`, `Lazy.Busy.C123_noLeak`, `Lazy.Busy.C123_stays`, `ListC.Changing.C124_apply_partial`, `ListC.Changing.C124_assign`, `ListC.Changing.C124_two_refuted`, `Lifetime.C126_kept_partial`, `Lifetime.C126_later`, `Lifetime.C126_follows`, `Lifetime.C126_scope`, `Lifetime.C126_during`, `Lifetime.C126_calls`, `Lifetime.C126_modified`, `Randomiser.Statics.C128_order_partial`, `Randomiser.Statics.C128_main`, `Double.C129_nearest`, `Double.C129_grid`, `Double.C129_limit`, `Double.C129_read`, `Double.C129_unreadable`, `Double.C129_finite_partial`, `Double.C129_infinite`, `Double.C129_largest`, `Double.C129_precisions`, `Double.C129_infinite_refuted`, `Double.C129_refuted`, `Double.C129_field`, `Double.C129_notGood`, `Double.C129_end`, `Double.C129_numerals`, `LRU.Recursive.C130_value_partial`, `LRU.Recursive.C130_once_partial`, `LRU.Recursive.C130_fibonacci`, `LRU.Recursive.C130_fibonacci_refs`, `LRU.Recursive.C130_one`, `LRU.Recursive.C130_three_partial`, `LRU.Recursive.C130_linear`, `Handle.Hierarchy.C131_dynamic`, `Handle.Hierarchy.C131_up`, `Handle.Hierarchy.C131_object`, `Handle.Hierarchy.C131_regular_partial`, `Handle.Hierarchy.C131_back_partial`, `Handle.Hierarchy.C131_compiles`, `Handle.Hierarchy.C131_extract`, `Handle.Hierarchy.C131_redundant`, `Handle.Hierarchy.C131_wrapper`, `Variant.C132_holds`, `Variant.C132_iff`, `Variant.C132_same`, `Seq.Format.C133_outcome`, `Seq.Format.C133_iff_partial`, `Seq.Format.C133_same_partial`, `Seq.Format.C133_shown_partial`, `Seq.Format.C133_negative_refuted`, `Seq.Format.C133_refuted`, `Seq.Format.C133_width_partial`, `Seq.Format.C133_default_reader`, `Seq.Format.C133_unsigned_refuted`, `Seq.Mask.C134_lists`, `Seq.Mask.C134_words`, `Seq.Mask.C134_roundTrip_partial`, `Seq.Mask.C134_left`, `Seq.Mask.C134_defined`, `Seq.Mask.C134_word`, `Seq.Mask.C134_word_partial`, `Seq.Mask.C134_word_refuted`, `Seq.Mask.C134_refuted`, `Seq.C135_lists`, `Seq.C135_word`, `Seq.C135_words`, `Seq.C135_ofString`, `Seq.C135_items`, `Seq.C135_masked`, `Seq.Raw.C136_lists`, `Seq.Raw.C136_ints`, `Seq.Raw.C136_bools`, `Seq.Raw.C136_words`, `Seq.Raw.C136_roundTrip`, `Seq.Raw.C136_roundTripWords`, `Seq.Raw.C136_chars`, `Seq.Raw.C136_word`, `Seq.Raw.C136_word_stuck`, `Seq.Raw.C136_refuted`, `Seq.Raw.C136_lists_refuted`, `Keys.C137_orders`, `Keys.C137_list`, `Keys.C137_dictionary`, `Keys.C137_word`, `Keys.C137_set`, `Keys.C137_map`, `Keys.C137_total`, `Keys.C137_sets`, `Keys.C137_maps`, `Keys.C137_cache`, `LRU.Idiom.C139_values`, `LRU.Idiom.C139_few_partial`, `LRU.Idiom.C139_locked_partial`, `LRU.Idiom.C139_put_refuted`, `LRU.Idiom.C139_get_refuted`, `Shared.C140_loop`, `Shared.C140_life`, `Shared.C140_store`, `Seq.Adjust.C141_vector_back`, `Seq.Adjust.C141_word_right`, `Seq.Adjust.C141_word_left_refuted`, `Seq.Adjust.C141_word_fill_refuted`, `Handle.Extract.C142_lifetime`, `Handle.Extract.C142_extract`, `Handle.Extract.C142_read`, `Seq.Copies.C145_none_partial`, `Randomiser.Real.C146_between_partial`, `Randomiser.Real.C146_mono`, `Randomiser.Real.C146_excluded_iff`, `Randomiser.Real.C146_excluded_partial`, `Randomiser.Real.C146_min`, `Randomiser.Real.C146_unit`, `Randomiser.Real.C146_clip`, `Randomiser.Real.C146_float`, `Randomiser.Real.C146_draws_partial`, `Randomiser.Real.C146_draws_excluded_partial`, `Randomiser.Real.C146_words`, `Randomiser.Real.C146_max_refuted`, `Randomiser.Real.C146_float_refuted`, `Randomiser.Real.C146_neighbours_refuted`, `Randomiser.Real.C146_zero_refuted`, `Randomiser.Real.C146_above_refuted`, `Randomiser.Ints.C147_uniform`, `Randomiser.Ints.C147_rounds`, `Randomiser.Ints.C147_get`, `Randomiser.Ints.C147_between`, `Randomiser.Ints.C147_first_partial`, `Randomiser.Ints.C147_each`, `Randomiser.Ints.C147_full`, `Randomiser.Ints.C147_pairs`, `Randomiser.Ints.C147_contract`, `Randomiser.Ints.C147_refuted`, `Randomiser.Seed.C148_width`, `Randomiser.Seed.C148_seed_iff`, `Randomiser.Seed.C148_device`, `Randomiser.Seed.C148_time`, `Randomiser.Seed.C148_iff_partial`, `Randomiser.Seed.C148_refuted`, `TestC.Within.C149_rounded`, `TestC.Within.C149_close`, `TestC.Within.C149_beyond`, `TestC.Within.C149_exact_partial`, `TestC.Within.C149_near_partial`, `TestC.Within.C149_whole`, `TestC.Within.C149_whole_close`, `TestC.Within.C149_fraction_refuted`, `TestC.Within.C149_int_partial`, `TestC.Within.C149_unsigned_partial`, `TestC.Within.C149_refuted`, `TestC.Within.C149_abs_refuted`, `TestC.Within.C149_finite`, `TestC.Within.C149_values_partial`, `TestC.Within.C149_infinity_refuted`, `TestC.Within.C149_nan`, `TestC.Within.C149_numbers`, `TestC.Within.C149_small`, `TestC.Within.C149_zero`, `TestC.Within.C149_macro`, `TestC.Within.C149_largest_refuted`, `Arith.C150_equal_iff`, `Arith.C150_less_iff`, `Arith.C150_same`, `Arith.C150_partial`, `Arith.C150_signed_iff`, `Arith.C150_macros`, `Arith.C150_check`, `Arith.C150_refuted`, `Arith.C150_size_refuted`, `Iter.PairPrint.C151_address`, `Iter.PairPrint.C151_addresses_partial`, `Iter.PairPrint.C151_mixed_partial`.

<!-- /axioms -->

### The reading of the C++ code

Each model definition cites the lines it models and states its simplifications. That these
definitions say what the C++ code does is trusted; nothing was compiled or run. In particular the
following are assumed.

* The C++20 standard library behaves as the standard says: `std::map`, `std::set`, `std::vector`,
  `std::list`, `std::shared_ptr`, `std::function`, `std::variant`/`std::visit`, `std::tuple`, the streams and
  number parsing, `std::chrono`, the random distributions (only their contract is used). The
  exception guarantees of the containers are used in C81.
* `size_t` and `ptrdiff_t` have 64 bits, `int` 32, `char` 8. Memory is unbounded except where an allocation
  fault is part of the model.
* `assert` and `HELPER_ASSERT` are active (no `NDEBUG`), except in `C44_ndebug`, `C61_ndebug` and `C70_ndebug`.
* Destructors of elements do not throw; assignment of an element that throws leaves it unchanged.
* A moved-from `std::function` is empty.

### What is modelled

| File | Modelled | Not modelled |
|---|---|---|
| array.hpp | `Array`: all constructors, assignments, resizing, access, comparison, fill, assign, iterators (C23–C31, C70, C77, C79, C88); `SharedArray` (C33, C34, C78), its iterators (C140), in threads (C118); `complement` (C32); printing (C18) | pointer arithmetic before the first cell |
| binary_word.hpp | all of `BinaryWord` (C08–C17), words and lists on one stream (C115), streams with exception masks (C134), termination (C135), `noskipws` (C136), words as keys (C137), output streams that fail (C138) | the file does not compile by itself: `StringType` and `StringStream` are not declared anywhere; the model takes them as `std::string` and `std::stringstream` |
| container.hpp | `List`, `LinkedList`, `Set`, `Map` and the free functions (C35–C44, C80, C81, C84, C85, C124), the containers themselves as keys (C137); which of them compile (C127; for element types that are classes other than the containers, and `make_array` for arithmetic types) | which functions compile for element types that are containers, pointers or references; what the functions that do not compile were meant to do; the downcast in `restrict_keys` is modelled by its intended effect only where it is defined |
| handle.hpp | `Handle` and the casts (C54–C57, C72), in threads (C101); which constructor runs, with slicing, and `make_handle` (C110); control blocks and deletion, also from pointers that are already owned (C111); calls that throw (C122); handles on const objects (C125); pointers extracted from pointers (C142); the error reports (C112); casts in hierarchies with repeated, virtual and non-public bases (C131) | `dynamic_handle_cast` to non-const (the code always takes the const branch); casts by members and friends of the classes; `Handle<const I>` constructed from objects; conversions by user code to the argument of a constructor |
| iterator.hpp | the operators of the facades over an abstract core (C46, C47), in loops and searches (C107); for which types `PairIterator::dereference` compiles (C144); printing of a `PairIterator` of pointers (C151) | `PairIterator::distance_to` (not defined) |
| lazy.hpp | all: sequential histories, threads, nested evaluation (C48–C51, C71, C89), factories that copy, assign and destroy variables (C123) | what a function does after its own variable is changed (undefined here) |
| lru_cache.hpp | all (C01–C07, C108, C109, C130, implicit copy and move operations included); lookups by threads, sequentially consistent (C121); memoisation in threads with locked calls (C139) | `put` in threads without locks; weaker memory orders (a data race is undefined in C++) |
| macros.hpp | the assertion, throw and precondition macros as programs (C61, C62); their texts and the reading of their arguments (C92, C93); their use as statements (C96); the names they declare (C97); `HELPER_USING_CONSTRUCTORS` (C98); the one-time macros in threads (C103); how arguments are found (C114) | assignments in arguments; `HELPER_NOT_IMPLEMENTED` needs the undeclared `StringType` |
| metaprogramming.hpp | `First`, `Second`, `AreAllSame`, `IsOneOf`, `IndexOf` (C59), the callable traits and concepts (C83); the result types of operators (C105); `CanAdd` and its kin (C106); `ResultOf` (C143) | the concepts that only rename standard traits; `MagType` (there is no `mag`) |
| randomiser.hpp | all (C67, C75); in threads (C104); in several translation units (C116), in initialisers of global variables (C128), reals in floating point (C146), integers (C147), the seed and the engine (C148) | the random device and the clocks (arbitrary numbers); the engine is that of the standard (C148), the distributions are modelled as in libstdc++ (C146 without bounds of the exponent, C147), elsewhere their contract is assumed |
| range.hpp | all (C45) | |
| stack_trace.hpp/.cpp | the printing loop (C66) | the C library functions, given by their results |
| stdlib.hpp, string.hpp | `to_string` and the aliases (C69); what `c_str` points to (C126) | |
| stlio.hpp | all writers and readers (C18–C22, C69, C82, C86, C87, C100, C119, C120, C129), with digit grouping (C113), with the flags for integers (C133), with exception masks of input streams (C134) and with `noskipws` (C136); termination (C135); output streams that fail (C138); widths and adjustment (C141); copies made by printing, elements that throw (C145) | other effects of locales (grouping of `double`, wide blanks) |
| stopwatch.hpp | all, over an arbitrary clock (C52, C53), `elapsed_seconds` in double precision (C102) | |
| test.hpp | the test macros as constructs of a small language (C63–C65, C74); what they write to `std::cout` and `std::cerr` (C90, C91); the iterator and vector macros (C94, C95); their use as statements (C96); the names they declare (C97); how arguments are found (C114); `HELPER_TEST_WITHIN` on floating-point numbers and integers (C149), comparisons of integers of different types (C150) | flushing; `HELPER_TEST_SAME_TYPE` for types without `class_name` (only `String` has one, string.hpp:56), which does not link; `HELPER_TEST_EQUIVALENT_TYPE` (uses the undeclared `IsEquivalent`); the type `GridTreeSubpaving` |
| tuple.hpp | `make_lpair`, `make_ltuple` (C60); how long the references last (C126) | |
| variant.hpp, variant.inl.hpp | `CodedVariant`, all 17 `coded_visit` overloads (C58, C73); codes of all integer types, results of several types (C132); references returned by `accept` (C126) | codes of class types convertible to integers; scoped enumerations with codes of other types (ill-formed) |
| writable.hpp | all (C68, C76) | |
| all headers | `#include` lines, guards, names needed and definitions at namespace scope (C116, C117) | the other rules that a compiler checks |
| test/*.cpp | the seven test programs (C99); the stopwatch test with `double` rounding | the `double` literals of the other tests are not rounded (nothing is computed with them) |

