{"id": "C01", "title": "LRUCache never exceeds its capacity", "statement": "After any sequence of has_label/get/age/put calls on a cache built with maximum size n>0, current_size() is the minimum of n and the number of puts that succeeded, and maximum_size() is still n.", "quantifier": "every n>0 and every finite history of calls, including calls that throw", "why_tests_cant": "tests replay a handful of short histories; the bound must hold after every history of every length", "anchors": ["include/lru_cache.hpp: LRUCache::put, current_size, maximum_size"]}
{"id": "C02", "title": "LRUCache evicts exactly the least recently used label", "statement": "A put on a full cache removes exactly one label, the one whose most recent use (successful put or successful get) is the oldest among the labels present, and keeps every other label and its value; a put on a cache that is not full removes nothing. has_label and age do not count as uses.", "quantifier": "every capacity and every history of calls", "why_tests_cant": "eviction order depends on the whole history of uses; tests check two or three interleavings", "anchors": ["include/lru_cache.hpp: LRUCache::put, get"]}
{"id": "C03", "title": "LRUCache::age counts the labels used more recently", "statement": "age(l) of a present label is the number of present labels whose last use is more recent than that of l; so the ages are exactly 0,...,current_size()-1, each once, and a just used label has age 0.", "quantifier": "every history of calls and every present label", "why_tests_cant": "the ages form a permutation only as an inductive invariant over all histories", "anchors": ["include/lru_cache.hpp: LRUCache::age, get, put"]}
{"id": "C04", "title": "LRUCache lookups return the value last put", "statement": "get(l) succeeds iff l was put and has not been evicted since, and returns the value given to the most recent successful put of l; has_label(l) is true exactly in that case.", "quantifier": "every history of calls and every label", "why_tests_cant": "requires relating the result to the whole earlier history", "anchors": ["include/lru_cache.hpp: LRUCache::get, has_label, put"]}
{"id": "C05", "title": "LRUCache calls that fail change nothing", "statement": "Constructing with size 0, get or age on an absent label and put on a present label throw std::runtime_error and leave every observable of the cache unchanged; no call made after a history of calls that did not throw during insertion has undefined behaviour.", "quantifier": "every history and every failing call", "why_tests_cant": "absence of any effect and of undefined behaviour must be shown from every reachable state", "anchors": ["include/lru_cache.hpp: LRUCache::LRUCache, get, age, put", "include/macros.hpp: HELPER_PRECONDITION, HELPER_ASSERT_MSG"]}
{"id": "C06", "title": "References returned by LRUCache::get stay valid until eviction, also as an argument of put", "statement": "The reference returned by get(l) keeps denoting the same value until l is evicted, whatever else is called in between; passing it as the value of a later put stores that value, and passing a label that is part of it puts under that label.", "quantifier": "every history between taking and using the reference", "why_tests_cant": "lifetime of a reference depends on all later evictions", "anchors": ["include/lru_cache.hpp: LRUCache::get, put"]}
{"id": "C07", "title": "LRUCache stays usable when storing an element throws", "statement": "If copying the value or label, or allocating the node, throws during put, the cache can still be used: later calls keep the LRU order of the remaining elements and have no undefined behaviour.", "quantifier": "every history with any number of puts whose insertion step throws", "why_tests_cant": "needs every crash point in every history; tests inject no exceptions", "anchors": ["include/lru_cache.hpp: LRUCache::put"]}
{"id": "C08", "title": "BinaryWord::operator< is the lexicographic strict total order", "statement": "w<v holds iff w is a proper prefix of v, or at the first position where they differ w has 0 and v has 1; it is irreflexive, transitive and for distinct words exactly one of w<v, v<w holds.", "quantifier": "all pairs and triples of words of any length", "why_tests_cant": "std::set and std::map keyed by words need the order laws for all triples", "anchors": ["include/binary_word.hpp: BinaryWord::operator<"]}
{"id": "C09", "title": "is_prefix decides the prefix relation", "statement": "w.is_prefix(v) is true iff v is w followed by some word; the relation is reflexive, antisymmetric and transitive and never reads out of bounds.", "quantifier": "all words", "why_tests_cant": "unbounded lengths", "anchors": ["include/binary_word.hpp: BinaryWord::is_prefix"]}
{"id": "C10", "title": "is_subword decides the contiguous-factor relation", "statement": "w.is_subword(v) is true iff v can be written as p, then w, then s for some words p and s; no read is out of bounds.", "quantifier": "all words", "why_tests_cant": "unbounded lengths and positions", "anchors": ["include/binary_word.hpp: BinaryWord::is_subword"]}
{"id": "C11", "title": "erase_prefix removes exactly the requested prefix", "statement": "w.erase_prefix(k) removes the first min(max(k,0),w.size()) bits and keeps the rest in order.", "quantifier": "every word and every int k, including negative k and k beyond the size", "why_tests_cant": "boundary values of k and of the size (which is converted to int) cannot be enumerated", "anchors": ["include/binary_word.hpp: BinaryWord::erase_prefix"]}
{"id": "C12", "title": "append concatenates words", "statement": "w.append(b) adds one bit at the end; w.append(v) makes w the concatenation of w and v and terminates, also when v is w itself; other words are unchanged.", "quantifier": "all words, including the aliased call w.append(w)", "why_tests_cant": "aliased and unbounded cases; non-termination cannot be observed by a finite test", "anchors": ["include/binary_word.hpp: BinaryWord::append"]}
{"id": "C13", "title": "Writing a BinaryWord and reading it back gives the same word", "statement": "For every word w, BinaryWord(to_string(w)) equals w; the bracketed form [b0,b1,...] of w is also read back as w.", "quantifier": "every word of any length, the empty word included", "why_tests_cant": "round trips must hold for all words", "anchors": ["include/binary_word.hpp: operator<<, operator>>, make_binary_word, BinaryWord::BinaryWord"]}
{"id": "C14", "title": "Parsing a BinaryWord is defined for every string", "statement": "make_binary_word(s) terminates for every string: if the first non-blank character is '[' it behaves as reading a vector<bool> (possibly throwing std::ios_base::failure), otherwise it returns the longest run of 0/1 that starts at the first non-blank character; no indeterminate value is read.", "quantifier": "every string, including empty and blank ones", "why_tests_cant": "all strings; reading an uninitialised variable is not observable in a test", "anchors": ["include/binary_word.hpp: operator>>, make_binary_word"]}
{"id": "C15", "title": "Several words written to a stream can be read back one after the other", "statement": "Writing words separated by blanks and then extracting the same number of words with >> returns the same words in order.", "quantifier": "every finite sequence of words", "why_tests_cant": "depends on stream state left by each extraction", "anchors": ["include/binary_word.hpp: operator<<, operator>>"]}
{"id": "C16", "title": "Writing a BinaryWord leaves the stream's formatting unchanged", "statement": "os << w emits the digits of w and leaves the formatting state of os as it was, so later output on os is unaffected.", "quantifier": "every word and every initial stream state", "why_tests_cant": "the effect is on all later output", "anchors": ["include/binary_word.hpp: operator<<"]}
{"id": "C17", "title": "bytes() and set_back()", "statement": "bytes() is the least number of 8-bit bytes that can hold size() bits; set_back(x) on a non-empty word changes only the last bit, to x; on an empty word it has no defined behaviour.", "quantifier": "every word", "why_tests_cant": "all lengths", "anchors": ["include/binary_word.hpp: BinaryWord::bytes, set_back"]}
{"id": "C18", "title": "Sequence writers emit opening, separated items, closing", "statement": "write_sequence and write_pointer_sequence write the opening character, the items in order with the separator between consecutive items only, and the closing character; the stream operators for vector, Array, SharedArray, list and set write the same text with [ ] or { } and ','.", "quantifier": "every sequence length and every choice of delimiters", "why_tests_cant": "off-by-one separators for all lengths", "anchors": ["include/stlio.hpp: write_sequence, write_pointer_sequence", "include/container.hpp: operator<<(vector), operator<<(Array), operator<<(set), operator<<(list)"]}
{"id": "C19", "title": "Reading back a written sequence of integers gives the same sequence", "statement": "read_sequence applied to the text produced by write_sequence (also through operator<< and operator>> of vector) with the same delimiters returns exactly the written sequence, replaces previous contents, and leaves the rest of the stream unread.", "quantifier": "every list of integers representable in the element type, any previous contents, any text following, any delimiters that are not blanks, digits or signs, with the closing character different from the separator", "why_tests_cant": "round trip over all sequences", "anchors": ["include/stlio.hpp: read_sequence, write_sequence, operator>>(vector)"]}
{"id": "C20", "title": "read_sequence accepts exactly bracketed separated lists", "statement": "On every input with a non-blank character (delimiters that are not blanks, closing different from opening and separator), read_sequence terminates; it returns normally iff the input starts with opening, items separated by the separator, closing (blanks allowed before each token), storing exactly those items, and otherwise throws std::ios_base::failure.", "quantifier": "every input character sequence", "why_tests_cant": "accept/reject over all strings, termination over all strings", "anchors": ["include/stlio.hpp: read_sequence"]}
{"id": "C21", "title": "read_sequence on blank input fails cleanly", "statement": "On an input without any non-blank character read_sequence throws std::ios_base::failure and reads no indeterminate value.", "quantifier": "every blank input", "why_tests_cant": "use of an indeterminate value is not observable", "anchors": ["include/stlio.hpp: read_sequence"]}
{"id": "C22", "title": "Map, pair and tuple writers", "statement": "write_map_sequence writes opening, key descriptor value items separated by the separator, closing, for every map; operator<< of std::map writes '{ k:v, k:v }'; pairs and tuples of any arity are written as '(' items separated by ',' ')' in order.", "quantifier": "every map size, every tuple arity", "why_tests_cant": "all sizes/arity", "anchors": ["include/stlio.hpp: write_map_sequence, write_map_pointer_sequence, write_coefficient_map_sequence, write_tuple, operator<<(pair), operator<<(tuple)", "include/container.hpp: operator<<(map)"]}
{"id": "C23", "title": "Array behaves as a value: any history agrees with plain lists", "statement": "For every history of constructions (default, size, size+value, list, range, generator), copies, moves, assignments, resizes, reallocations, swaps, element writes, fills and destructions on any number of arrays, the contents of every live array are those obtained by the same operations on independent mathematical lists; a moved-from array is empty.", "quantifier": "every number of arrays and every finite history of operations within index bounds", "why_tests_cant": "aliasing between arrays only shows in particular histories", "anchors": ["include/array.hpp: Array (constructors, operator=, resize, reallocate, swap, fill, operator[])"]}
{"id": "C24", "title": "Copies of an Array are independent", "statement": "After copy construction or copy assignment no operation on one array changes the contents of the other; swap exchanges the contents of exactly two arrays.", "quantifier": "every pair of arrays and later operation", "why_tests_cant": "needs disjointness of storage in every reachable state", "anchors": ["include/array.hpp: Array(const Array&), operator=(const Array&), swap"]}
{"id": "C25", "title": "Array storage is released exactly once and never leaked", "statement": "In every history ending with all arrays destroyed, every element constructed is destroyed exactly once, every block allocated is freed exactly once, and no freed or unconstructed element is accessed.", "quantifier": "every history of Array operations", "why_tests_cant": "leaks and double frees depend on the history; unit tests cannot see leaks", "anchors": ["include/array.hpp: ~Array, operator=(Array&&), _destroy_elements, uninitialized_new, uninitialized_delete"]}
{"id": "C26", "title": "resize keeps the common prefix", "statement": "After resize(n) or resize(n,t) the array has n elements, the first min(n,old size) are the old ones and the others are default-constructed or equal to t (also when t refers to an element of the array itself); after reallocate(n) with n different from the size all n elements are default-constructed, with n equal to the size nothing changes.", "quantifier": "every array and every n", "why_tests_cant": "all sizes, growing and shrinking", "anchors": ["include/array.hpp: resize, reallocate"]}
{"id": "C27", "title": "Checked access throws exactly when out of range", "statement": "at(i) returns the i-th element when i<size() and throws std::out_of_range otherwise; operator[](i), front() and back() are defined exactly when the element exists.", "quantifier": "every array and index", "why_tests_cant": "all indices", "anchors": ["include/array.hpp: at, operator[], front, back"]}
{"id": "C28", "title": "Array equality is element-wise equality", "statement": "a==b iff they have the same size and equal elements at every index; a!=b is its negation; the comparison never reads out of bounds.", "quantifier": "all pairs of arrays", "why_tests_cant": "all sizes", "anchors": ["include/array.hpp: operator==, operator!="]}
{"id": "C29", "title": "Array operations that throw leave the array destructible", "statement": "If an allocation or an element constructor throws during any Array operation, all arrays can still be destroyed without undefined behaviour.", "quantifier": "every history with a failure at any allocation or constructor call", "why_tests_cant": "requires every crash point", "anchors": ["include/array.hpp: operator=(const Array&), reallocate, resize, constructors"]}
{"id": "C30", "title": "Array construction with a huge size fails cleanly", "statement": "Constructing an Array whose byte size does not fit in size_t throws instead of writing outside the allocated block.", "quantifier": "every size n and element size", "why_tests_cant": "sizes near 2^64 cannot be tested by allocation", "anchors": ["include/array.hpp: uninitialized_new, Array(size_t), Array(size_t,const T&)"]}
{"id": "C31", "title": "fill and assign work with arguments taken from the array itself", "statement": "a.fill(a[i]) sets every element to the value a[i] had before the call; a.assign(first,last) makes a equal to the range, also when the range lies in a.", "quantifier": "every array, index and sub-range", "why_tests_cant": "aliasing cases for all sizes", "anchors": ["include/array.hpp: fill, assign"]}
{"id": "C32", "title": "complement returns the indices not listed", "statement": "For strictly increasing vars with all entries below nmax, complement(nmax,vars) is the increasing list of the indices below nmax not in vars, and no access is out of bounds; for any other vars the function has no defined result.", "quantifier": "every nmax and every vars", "why_tests_cant": "out-of-bounds writes for unsorted input only show for particular inputs", "anchors": ["include/array.hpp: complement"]}
{"id": "C33", "title": "SharedArray copies share one buffer and its count is the number of owners", "statement": "Copies of a SharedArray see each other's writes; the reference count of a buffer equals the number of SharedArrays that own it in every history of constructions, copies and assignments, and a buffer is freed by assignment exactly when its last owner is reassigned.", "quantifier": "every history of constructions, copies and assignments", "why_tests_cant": "counts are a history invariant", "anchors": ["include/array.hpp: SharedArray(const SharedArray&), SharedArray::operator="]}
{"id": "C34", "title": "Destroying SharedArrays frees each buffer exactly once", "statement": "Destroying a SharedArray decrements its count, frees buffer and count when the last owner goes, and accesses only memory it owns.", "quantifier": "every history including destructions", "why_tests_cant": "undefined behaviour is not observable by a passing test", "anchors": ["include/array.hpp: ~SharedArray"]}
{"id": "C35", "title": "Set queries answer membership questions", "statement": "contains(t) is true iff an element equivalent to t is in the set; free subset(s1,s2) iff every element of s1 is in s2; member s.subset(s2) iff every element of s2 is in s; disjoint (all four forms) iff there is no common element.", "quantifier": "all sets and lists over every type with a strict weak order", "why_tests_cant": "all contents", "anchors": ["include/container.hpp: Set::contains, subset, disjoint, contains(set)"]}
{"id": "C36", "title": "Set algebra", "statement": "adjoin/join give the union, intersection (with set or list) the common elements, difference and remove the elements not in the argument, remove(t) removes just t, free restrict keeps the common elements.", "quantifier": "all sets, lists and elements", "why_tests_cant": "all contents, erase-while-iterating loops", "anchors": ["include/container.hpp: Set::adjoin, remove, join, intersection, difference, remove, restrict"]}
{"id": "C37", "title": "Set::restrict keeps the elements that are in the argument", "statement": "After s.restrict(r) the set s holds exactly the elements that were in s and are in r (as the free function restrict does).", "quantifier": "all sets", "why_tests_cant": "all contents", "anchors": ["include/container.hpp: Set::restrict"]}
{"id": "C38", "title": "Sets are iterated in increasing order without repetition", "statement": "Whatever operations built it, iterating a Set (and make_list of it) yields strictly increasing elements; make_set of a list holds exactly the elements of the list; conversion to a list and back is the identity.", "quantifier": "all sets built by any history of operations", "why_tests_cant": "invariant over all histories", "anchors": ["include/container.hpp: Set, make_list, make_set, operator List<T>"]}
{"id": "C39", "title": "Map lookups and inserts", "statement": "get, value and const operator[] return the value bound to an equivalent key and throw std::runtime_error iff there is none; insert (all forms) binds an absent key and leaves a present key's value unchanged, the free insert returning the bound value; non-const operator[] inserts a default for an absent key; has_key tells presence.", "quantifier": "every map, key and value", "why_tests_cant": "all contents", "anchors": ["include/container.hpp: Map::get, value, operator[], insert, has_key, insert(Map&)"]}
{"id": "C40", "title": "Map adjoin and join prefer existing bindings", "statement": "After m1.adjoin(m2), or in join(m1,m2), a key is bound iff bound in m1 or m2, to m1's value if bound in m1 and to m2's value otherwise.", "quantifier": "all pairs of maps", "why_tests_cant": "all contents", "anchors": ["include/container.hpp: Map::adjoin, join"]}
{"id": "C41", "title": "Map keys, values, restriction and removal", "statement": "keys() is the set of bound keys; values() lists the bound values in increasing key order; restrict_keys(m,s) keeps exactly the bindings whose key is in s; remove_keys(s) removes exactly those.", "quantifier": "all maps and key sets", "why_tests_cant": "all contents", "anchors": ["include/container.hpp: Map::keys, values, remove_keys, restrict_keys"]}
{"id": "C42", "title": "unique_elements and duplicate_elements", "statement": "unique_elements(l) iff no two positions of l hold equivalent elements; duplicate_elements(l) is the set of the elements that occur at least twice; the first holds iff the second is empty.", "quantifier": "all lists", "why_tests_cant": "all contents and lengths", "anchors": ["include/container.hpp: unique_elements, duplicate_elements"]}
{"id": "C43", "title": "List append, concatenate and catenate", "statement": "append(t) adds t at the end; append(l), concatenate(l) and catenate(l1,l2) give the concatenation and terminate for every list, also for l.append(l) and for lists longer than 2^32.", "quantifier": "all lists, aliased or not", "why_tests_cant": "non-termination and 2^32 lengths are out of reach of tests", "anchors": ["include/container.hpp: List::append, concatenate, catenate"]}
{"id": "C44", "title": "apply and elementwise map over lists", "statement": "apply(f,l) and elementwise(f,l) give f of each element in order, calling f once per element in order; the two-list form requires equal sizes (asserted) and gives f(l1[i],l2[i]) at each index.", "quantifier": "all functions (also stateful) and lists", "why_tests_cant": "all lengths", "anchors": ["include/container.hpp: apply, elementwise"]}
{"id": "C45", "title": "Iterating a Range visits exactly its indices", "statement": "for(i : range(a,b)) visits a, a+1, ..., b-1, terminates after size() steps, and the i-th visited value is range[i]; start, stop, stride, size agree with that. When a>b size() and iteration wrap modulo 2^64.", "quantifier": "all 64-bit a and b", "why_tests_cant": "2^128 pairs", "anchors": ["include/range.hpp: Range, RangeIterator, begin, end"]}
{"id": "C46", "title": "Random-access IteratorFacade operators obey the iterator laws", "statement": "For every iterator class whose equal, distance_to and advance act as positions on a line, the facade's ==, !=, <, <=, >, >=, +, -, +=, -=, ++, -- behave as those of positions: (i+n)-i=n, (i+n)-n=i, i<j iff j-i>0, and so on, unless negating n overflows.", "quantifier": "every conforming iterator class, every position and offset", "why_tests_cant": "all offsets including the extreme ptrdiff_t values", "anchors": ["include/iterator.hpp: IteratorFacade<RandomAccessTraversalTag>"]}
{"id": "C47", "title": "Forward IteratorFacade and PairIterator", "statement": "For forward iterators ++i advances once and returns the new iterator, i++ advances once and returns the old one, == and != are opposite; a PairIterator compares equal iff both components are equal and advances both by the same offset.", "quantifier": "every conforming iterator class and position", "why_tests_cant": "generic over all classes", "anchors": ["include/iterator.hpp: IteratorFacade<ForwardTraversalTag>, PairIterator"]}
{"id": "C48", "title": "Lazy calls its factory at most once, on first use", "statement": "Constructing a Lazy calls nothing; the first evaluation calls the factory once and all later evaluations return the same object without calling it.", "quantifier": "every number of evaluations", "why_tests_cant": "unbounded number of calls", "anchors": ["include/lazy.hpp: Lazy::operator()"]}
{"id": "C49", "title": "Lazy recovers from a throwing factory and needs a non-null object", "statement": "If the factory throws, the exception propagates and the next evaluation tries again; the object returned is the first one successfully produced. A factory returning a null pointer has no defined behaviour.", "quantifier": "every sequence of factory outcomes", "why_tests_cant": "all failure patterns", "anchors": ["include/lazy.hpp: Lazy::operator()"]}
{"id": "C50", "title": "Lazy is safe to evaluate from several threads", "statement": "When several threads evaluate the same Lazy, the factory is called once and all threads get the same object, for every interleaving.", "quantifier": "every number of threads and every schedule", "why_tests_cant": "schedules cannot be enumerated by tests", "anchors": ["include/lazy.hpp: Lazy::operator()"]}
{"id": "C51", "title": "Copies of an evaluated Lazy share the object", "statement": "Copies made after the first evaluation return the same object without calling the factory; copies made before it each call the factory once.", "quantifier": "every history of copies and evaluations", "why_tests_cant": "all histories", "anchors": ["include/lazy.hpp: Lazy"]}
{"id": "C52", "title": "Stopwatch measures from the last restart to the last click after it", "statement": "duration() is the time between the last restart (or construction) and the last click since, zero if none, truncated towards zero to the unit; it does not change between clicks and restarts.", "quantifier": "every history of restart/click/duration and every clock behaviour", "why_tests_cant": "all histories", "anchors": ["include/stopwatch.hpp: Stopwatch"]}
{"id": "C53", "title": "Stopwatch readings are monotone and accurate", "statement": "If the clock never goes back, durations of successive clicks without a restart never decrease and are never negative, the reading is less than one unit below the true interval, and elapsed_seconds() is the reading expressed in seconds. Nothing prevents a negative reading if the clock goes back.", "quantifier": "every monotone clock and history", "why_tests_cant": "all clock readings", "anchors": ["include/stopwatch.hpp: Stopwatch::duration, elapsed_seconds"]}
{"id": "C54", "title": "Handles have value semantics", "statement": "A change made through the non-const reference(), ref(), pointer(), ptr() or managed_pointer() of a handle right after obtaining it is seen through that handle and through no other handle, in any history of constructions, copies, moves, assignments and changes.", "quantifier": "every history on any number of handles", "why_tests_cant": "sharing depends on the history", "anchors": ["include/handle.hpp: Handle::reference, pointer, make_unique, copy/move"]}
{"id": "C55", "title": "dynamic_handle_extract does not break value semantics", "statement": "A change made through the reference returned by the non-const dynamic_handle_extract is seen through no other handle.", "quantifier": "every history", "why_tests_cant": "sharing depends on the history", "anchors": ["include/handle.hpp: dynamic_handle_extract(Handle<I>&)"]}
{"id": "C56", "title": "A reference obtained from a handle stays usable", "statement": "A reference obtained from a handle stays valid and keeps denoting the handle's object as long as the handle is neither assigned, moved from nor destroyed.", "quantifier": "every history of calls on the handle", "why_tests_cant": "dangling references are not observable reliably", "anchors": ["include/handle.hpp: Handle::reference, make_unique"]}
{"id": "C57", "title": "dynamic_handle_cast and dynamic_handle_extract succeed exactly on matching types", "statement": "The cast succeeds iff the object's dynamic type is the target or derives from it, and the result shares the object; extract succeeds iff the object is a T or a Wrapper of T; otherwise std::bad_cast is thrown.", "quantifier": "all class hierarchies, objects and targets", "why_tests_cant": "all hierarchies", "anchors": ["include/handle.hpp: dynamic_handle_cast, dynamic_handle_extract, dynamic_pointer_extract"]}
{"id": "C58", "title": "CodedVariant::accept visits the alternative whose code is stored", "statement": "For up to 16 alternatives with distinct codes, accept calls the visitor exactly once with the alternative whose code equals the stored code and aborts iff there is none; a variant built from an alternative holds that alternative, holds_alternative tells exactly that, and accept dispatches to it.", "quantifier": "every list of at most 16 alternatives with distinct codes, every stored code, every visitor", "why_tests_cant": "17 hand-written overloads times all codes", "anchors": ["include/variant.hpp: CodedVariant, holds_alternative", "include/variant.inl.hpp: coded_visit, CodedVariant::accept"]}
{"id": "C59", "title": "Type-list predicates", "statement": "AreAllSame<TS...> iff all types are equal; IsOneOf<T,US...> iff T occurs in US...; IndexOf<T,TS...>::N is the position of the first occurrence of T and does not exist if there is none; First and Second are the first two types.", "quantifier": "all type lists", "why_tests_cant": "all lengths", "anchors": ["include/metaprogramming.hpp: AreAllSame, IsOneOf, IndexOf, First, Second"]}
{"id": "C60", "title": "Assigning to make_lpair and make_ltuple assigns the named variables", "statement": "make_lpair(a,b)=make_pair(x,y) and make_ltuple(a1,...)=make_tuple(x1,...) set the variables to the values and change nothing else; with values taken from the same variables (as in swapping through make_pair) the old values are used. get_first..get_fifth select the corresponding component.", "quantifier": "all variables (aliased or not), values and arities", "why_tests_cant": "aliasing", "anchors": ["include/tuple.hpp: make_lpair, make_ltuple, get_first, get_second, get_third, get_fourth, get_fifth"]}
{"id": "C61", "title": "Assertion macros throw exactly when the condition is false", "statement": "HELPER_ASSERT, HELPER_ASSERT_MSG, HELPER_PRECONDITION, HELPER_PRECONDITION_MSG and HELPER_ASSERT_EQUAL throw std::runtime_error iff the condition evaluates to false, evaluate it exactly once when it holds, and the DEBUG forms do so without NDEBUG and evaluate nothing with NDEBUG.", "quantifier": "all conditions, also with side effects or throwing", "why_tests_cant": "all programs", "anchors": ["include/macros.hpp: HELPER_ASSERT, HELPER_ASSERT_MSG, HELPER_PRECONDITION, HELPER_ASSERT_EQUAL, HELPER_DEBUG_ASSERT, HELPER_DEBUG_PRECONDITION"]}
{"id": "C62", "title": "One-time diagnostics are printed once per call site", "statement": "HELPER_WARN_ONCE and HELPER_DEPRECATED print their message the first time their call site is reached and never again; distinct call sites are independent.", "quantifier": "every sequence of visits to any number of call sites", "why_tests_cant": "all sequences", "anchors": ["include/macros.hpp: HELPER_WARN_ONCE, HELPER_DEPRECATED"]}
{"id": "C63", "title": "The failure counter counts the failed checks", "statement": "After running any test program, HELPER_TEST_FAILURES equals the number of checks that failed plus the number of calls ended by a standard exception, and an exception inside HELPER_TEST_CALL ends only that call.", "quantifier": "every test program built from the macros, nested calls included", "why_tests_cant": "the framework itself is tested by nothing", "anchors": ["include/test.hpp: HELPER_TEST_CALL, HELPER_TEST_ASSERT, HELPER_TEST_EQUALS, HELPER_TEST_FAIL, HELPER_TEST_THROWS, HELPER_TEST_CATCH and the other macros"]}
{"id": "C64", "title": "A test executable exits with 0 iff nothing failed", "statement": "A main that ends with 'return HELPER_TEST_FAILURES' has process exit status 0 iff no check failed.", "quantifier": "every number of failures", "why_tests_cant": "large failure counts do not occur in tests of the library", "anchors": ["include/test.hpp: HELPER_TEST_FAILURES", "test/test_lru_cache.cpp: main"]}
{"id": "C65", "title": "Test macros evaluate the tested expression once when the check passes", "statement": "When a check passes, the tested and the expected expression are each evaluated exactly once; when it fails each is evaluated again only to print it, so the verdict is that of the first evaluation.", "quantifier": "all expressions with side effects", "why_tests_cant": "all programs", "anchors": ["include/test.hpp: HELPER_TEST_EQUAL, HELPER_TEST_EQUALS, HELPER_TEST_CHECK, HELPER_TEST_ASSERT, HELPER_TEST_LESS, HELPER_TEST_COMPARE"]}
{"id": "C66", "title": "stack_trace writes one line per frame", "statement": "stack_trace() writes exactly one line for each of the (at most 128) innermost frames, whatever symbol information is available.", "quantifier": "all call stacks and symbol information", "why_tests_cant": "all stacks, stripped binaries", "anchors": ["src/stack_trace.cpp: stack_trace"]}
{"id": "C67", "title": "Randomisers return values in their interval from one shared engine", "statement": "Every get() of a UniformInt/UniformRealRandomiser built with min<=max returns a value in [min,max] (max excluded for reals), whatever other randomisers are used in between; all draws advance the same engine.", "quantifier": "every interleaving of draws on any number of randomisers, any seed", "why_tests_cant": "random values", "anchors": ["include/randomiser.hpp: RandomiserBase, UniformIntRandomiser, UniformRealRandomiser, RandomGenerator"]}
{"id": "C68", "title": "Writable objects and writers write through streams", "statement": "os << w writes exactly what the object's or writer's write function writes, and returns the stream so that chained output appears in order; a WritableTemporary must not outlive the writer and the object.", "quantifier": "every chain of writes", "why_tests_cant": "all chains; dangling temporaries", "anchors": ["include/writable.hpp: operator<<, WriterInterface, Writer, WritableTemporary"]}
{"id": "C69", "title": "to_string is what the stream operator writes", "statement": "to_string(t) and to_str(t) are the text os << t writes to a fresh stream with default formatting; for strings it is the identity; for integers it is injective.", "quantifier": "all values", "why_tests_cant": "all values", "anchors": ["include/string.hpp: to_string, to_str, String"]}
{"id": "C70", "title": "An Array cannot be built from a reversed range", "statement": "Constructing an Array from iterators first > last aborts at the assertion (or throws bad_alloc) and never yields an array.", "quantifier": "every pair of iterators into the same sequence in the wrong order, every element size", "why_tests_cant": "the length is converted to size_t before it is checked", "anchors": ["include/array.hpp: Array(ForwardIterator,ForwardIterator)"]}
{"id": "C71", "title": "Objects made by a Lazy are deleted exactly once", "statement": "Each object made by a factory is owned by the Lazy it was made for and its later copies; it is deleted exactly once, when the last owner is destroyed, assigned to or moved from, and never before; copies and moves hand over the object as values do.", "quantifier": "every history of constructions, copies, moves, assignments, evaluations and destructions, every pattern of factory failures", "why_tests_cant": "ownership depends on the history", "anchors": ["include/lazy.hpp: Lazy"]}
{"id": "C72", "title": "Objects behind handles live exactly as long as they are owned", "statement": "An object behind a handle is alive exactly while some handle or shared pointer obtained from one owns it, and a live handle that is not empty can always be read; reading gives the class and value last written to its object.", "quantifier": "every history of constructions, copies, moves, assignments, destructions, accesses and pointer hand-outs, clones that throw included", "why_tests_cant": "lifetimes depend on the history", "anchors": ["include/handle.hpp: Handle"]}
{"id": "C73", "title": "CodedVariant::accept leaves a visitor passed by const reference unchanged", "statement": "accept(V const& v) does not change the visitor, and is defined for visitors that are const objects.", "quantifier": "every visitor, const or not, every stored code", "why_tests_cant": "all visitors; a const_cast hides the change from the compiler", "anchors": ["include/variant.inl.hpp: CodedVariant::accept"]}
{"id": "C74", "title": "HELPER_TEST_WITHIN compares the distance of its first two arguments with the tolerance", "statement": "HELPER_TEST_WITHIN(e,x,t) passes iff |e-x| <= t, for arguments written as any sums of terms.", "quantifier": "all sums as arguments", "why_tests_cant": "all ways of writing the arguments", "anchors": ["include/test.hpp: HELPER_TEST_WITHIN"]}
{"id": "C75", "title": "Randomisers can be deleted through their interface", "statement": "An object of any randomiser class held by a pointer to RandomiserInterface<T> can be deleted through that pointer.", "quantifier": "every class derived from RandomiserInterface", "why_tests_cant": "interface classes elsewhere in the library have virtual destructors", "anchors": ["include/randomiser.hpp: RandomiserInterface"]}
{"id": "C76", "title": "IsWritable tells which types can be written", "statement": "IsWritable<T> holds exactly if a T has a _write function that can be called with a stream, so that operator<< exists for exactly those types.", "quantifier": "all types, with any parameter of _write", "why_tests_cant": "a property of all types", "anchors": ["include/writable.hpp: IsWritable, has_write, operator<<"]}
{"id": "C77", "title": "Arrays of uninitialised elements hold what is constructed in them", "statement": "After Array(n,Uninitialised) and placement new at any indices, an index gives the value constructed there last; reading an index without an element is undefined, and so is destruction unless every index has one; destruction then frees the storage.", "quantifier": "every n, every sequence of constructions at indices below n", "why_tests_cant": "all sequences, repeated constructions included", "anchors": ["include/array.hpp: Array(size_t,Uninitialised), ~Array"]}
{"id": "C78", "title": "A SharedArray constructor that throws has no effect", "statement": "If an allocation or the assignment of an element throws in a SharedArray constructor, the exception leaves the constructor and nothing stays allocated.", "quantifier": "all sizes, element values and points of failure", "why_tests_cant": "all points of failure", "anchors": ["include/array.hpp: SharedArray constructors"]}
{"id": "C79", "title": "Converting constructors of Array convert element by element", "statement": "Array(Array<TT>), Array(Array<TT>,pr) and Array({doubles},pr) give an array of the same length whose elements are T(x) or T(x,pr) in order; the effects, exceptions included, are those of construction from the converted values.", "quantifier": "all lengths, conversions and points of failure", "why_tests_cant": "all lengths and failures", "anchors": ["include/array.hpp: Array(InitializerList<double>,PR), Array(const Array<TT>&), Array(const Array<TT>&,PR)"]}
{"id": "C80", "title": "A LinkedList holds what it is constructed from and appended to", "statement": "The constructors of LinkedList give lists with the number of elements, the converted elements or the range asked for, and append adds one element at the end.", "quantifier": "all counts, lists, ranges and elements", "why_tests_cant": "all lengths; counts beyond 2^32", "anchors": ["include/container.hpp: LinkedList"]}
{"id": "C81", "title": "Container functions that throw leave a valid container", "statement": "If an operation of a standard container throws inside adjoin, remove, restrict, remove_keys, append or concatenate, the container is valid and is what the steps before the exception have made of it: nothing else is added or lost.", "quantifier": "all containers, arguments (the container itself included) and points of failure", "why_tests_cant": "all points of failure", "anchors": ["include/container.hpp: Set, Map, List"]}
{"id": "C82", "title": "Nested vectors and vectors of words read back", "statement": "A std::vector nested to any depth, of integers or of BinaryWords, written with operator<< and read with operator>> gives the same value and leaves the stream good just after the closing bracket, whatever follows.", "quantifier": "every depth, every nested vector, every following text", "why_tests_cant": "containers of containers are serialised this way; a reader that mixes up the brackets of two levels, or an item whose text is not accepted back, loses data", "anchors": ["include/stlio.hpp:144-190", "include/stlio.hpp:276-283", "include/container.hpp:127-135"]}
{"id": "C83", "title": "The traits of callable types say what their names say", "statement": "IsInvocable<F,A...> and IsInvocableReturning<R,F,A...> hold iff f(a...) is a valid call, respectively one whose result converts to R; the concept InvocableReturning agrees; Convertible and ExplicitlyConvertible exclude each other and cover all constructible types.", "quantifier": "every assignment of calls, conversions and overloaded assignments to types", "why_tests_cant": "constructors of Array, List and Set are selected by these traits; a trait that is wrong silently removes or adds overloads", "anchors": ["include/metaprogramming.hpp:113-131", "include/metaprogramming.hpp:148-175"]}
{"id": "C84", "title": "make_list and make_array hold the elements of the container they are given", "statement": "make_list(c) and make_array(c) have exactly the elements of the container c in order, for every container type of the library; a value that is no container becomes the only element.", "quantifier": "every container type, every element type, every contents", "why_tests_cant": "the overloads compete; if the generic one wins for a container, the result is a list with the container as its only element", "anchors": ["include/container.hpp:318-327"]}
{"id": "C85", "title": "Constructing from a count gives that many elements", "statement": "Array<T>(n,x) has n elements equal to x and List<T>(n) has n default elements, for every arithmetic type of n and every element type T.", "quantifier": "every arithmetic type of the count, every element type, every n", "why_tests_cant": "the constructors from counts compete with those from values and iterators; choosing a different one changes the size of the result", "anchors": ["include/array.hpp:81-104", "include/container.hpp:80-87"]}
{"id": "C86", "title": "Compositions of containers of printable types are printable", "statement": "os << x compiles for every x whose type is composed of the containers of the library and the standard ones, pairs and tuples, if its elements can be printed.", "quantifier": "every composition, of every depth, and every element type", "why_tests_cant": "a printer that cannot be found from the template that needs it makes printing a nested container a compile error far away from its cause", "anchors": ["include/container.hpp:51-69", "include/container.hpp:127-135", "include/container.hpp:155-158", "include/container.hpp:238-246", "include/container.hpp:292-300", "include/stlio.hpp:188-223"]}
{"id": "C87", "title": "A failed read leaves the items read before the error", "statement": "If read_sequence throws, the container holds exactly the items of the text before the place where it stops being a sequence, in order and nothing of its previous contents; an exception of the reader of an item is passed on unchanged.", "quantifier": "every input with a non-blank character, every delimiters, every previous contents, every item type", "why_tests_cant": "callers that catch the exception may use or show what was read; items of an earlier read, or an item that was not read properly, must not be among them", "anchors": ["include/stlio.hpp:144-190"]}
{"id": "C88", "title": "Loops over an Array and the life of its iterators", "statement": "A loop from begin() to end() ends and visits exactly the elements in order, and may replace them in place. An iterator keeps denoting the element with its index, of the array that has the storage, through every operation that does not change the size of its array: it follows moves and swaps; after a change of size by assignment, resize or reallocate, or destruction, every use of it is undefined; after a move assignment to its array it reads the old elements, which no array has any more.", "quantifier": "every array of every size, every element type, every operation and history, every index", "why_tests_cant": "Array's iterators are plain pointers, used by every algorithm and every range-for over arrays; using one after the storage has gone is memory corruption", "anchors": ["include/array.hpp:60-61,142,181-187"]}
{"id": "C89", "title": "Factories that evaluate Lazy variables", "statement": "A factory may evaluate Lazy variables. Every evaluation returns if the factories terminate, the factory of a variable is called once, and every object returned by an evaluation, to the client or to a factory, stays until its variable gives it up.", "quantifier": "every number of variables, every factories, every nesting of evaluations, every history of evaluations", "why_tests_cant": "values computed on demand from each other are the reason to have Lazy; a cycle must not produce references to deleted objects", "anchors": ["include/lazy.hpp:47"]}
{"id": "C90", "title": "Every failure is reported", "statement": "Every failure that the test macros count is reported on std::cerr with the file and the line of the macro, in the order of the failures; nothing else is written there but warnings and notifications.", "quantifier": "every test program over all the test macros with any nesting, branching and loops, every state, every values of the expressions", "why_tests_cant": "a failing test run without a message, or a message without a failure, hides the cause", "anchors": ["include/test.hpp:100", "include/test.hpp:114", "include/test.hpp:184", "include/test.hpp:260", "include/test.hpp:477"]}
{"id": "C91", "title": "Texts of the test messages", "statement": "A failed check writes a message with the place, the kind of the check, the text of the expressions and the values that were compared to std::cerr, and the corresponding output to std::cout; a check that passes writes only to std::cout.", "quantifier": "every test macro, every expressions and values, every place, every state", "why_tests_cant": "the messages are all a developer sees of a failed test", "anchors": ["include/test.hpp:199", "include/test.hpp:260", "include/test.hpp:326", "include/test.hpp:402"]}
{"id": "C92", "title": "Texts of the exceptions thrown by the assertion macros", "statement": "The text of the exception names its type, the place, the kind of assertion and the text of the expression, followed by the value of the message given to the macro.", "quantifier": "every macro, every place, every expression text, every message written with infix operators", "why_tests_cant": "the text of the exception is all that is reported of a violated assertion", "anchors": ["include/macros.hpp:49", "include/macros.hpp:56", "include/macros.hpp:95", "include/macros.hpp:125", "include/macros.hpp:130"]}
{"id": "C93", "title": "Macro arguments are taken as units", "statement": "An expression given to a macro is evaluated as if it stood in parentheses wherever the macro uses it, in conditions as well as in messages.", "quantifier": "every argument made of operands and infix operators of any number and precedence", "why_tests_cant": "an operator in an argument that is weaker than those in the macro changes what is compared or shown", "anchors": ["include/macros.hpp:138", "include/macros.hpp:156", "include/test.hpp:69", "include/test.hpp:309"]}
{"id": "C94", "title": "HELPER_TEST_GRID_TREE_SUBPAVING_ITERATOR counts the differences", "statement": "The macro counts one failure for each element that differs from the expected one and one if their number is not the expected one, and reads only elements that exist.", "quantifier": "every sequences of elements, every expected number, every state of the counters", "why_tests_cant": "it is the only loop among the test macros", "anchors": ["include/test.hpp:585"]}
{"id": "C95", "title": "HELPER_CLEAN_TEST_VECTOR deletes each object once", "statement": "The macro deletes each object that the vector points to exactly once, leaves all others, and sets all pointers to null.", "quantifier": "every vector of pointers, every heap", "why_tests_cant": "a double delete is undefined behaviour, a missing one a leak", "anchors": ["include/test.hpp:600"]}
{"id": "C96", "title": "Statement macros can be used as statements", "statement": "A use of a macro of macros.hpp or test.hpp that stands for a statement, with or without a semicolon after it, can be put wherever a statement can, and does then what the macro says as a single statement: write, throw if the condition is false, print once for that place, report a test, or construct a variable with a report.", "quantifier": "every function body made of user statements, blocks, if and else nested to any depth and uses of the macros, every history of calls", "why_tests_cant": "a macro that is not one statement changes the meaning of the code around it", "anchors": ["include/macros.hpp:56", "include/macros.hpp:149", "include/macros.hpp:156", "include/macros.hpp:166", "include/test.hpp:184", "include/test.hpp:402", "include/test.hpp:415"]}
{"id": "C97", "title": "Arguments of macros mean the caller's variables", "statement": "The arguments of the macros are evaluated with the variables and functions that their names mean where the macro is used; a macro then does with the values what it is for: throw unless the condition holds, count a failure unless the test holds, and show the values of the arguments in messages.", "quantifier": "every macro of macros.hpp and test.hpp with arguments that are evaluated, all argument expressions and messages, every set of variables of the caller with all values", "why_tests_cant": "a macro that declares a name around its argument changes the meaning of the argument: a test may pass for all values", "anchors": ["include/macros.hpp:49", "include/macros.hpp:56", "include/macros.hpp:111", "include/macros.hpp:166", "include/test.hpp:184", "include/test.hpp:306", "include/test.hpp:386", "include/test.hpp:585", "include/test.hpp:600"]}
{"id": "C98", "title": "HELPER_USING_CONSTRUCTORS gives a class the constructors of its base", "statement": "A class with HELPER_USING_CONSTRUCTORS(Class,Base) can be constructed from the arguments that the base can be constructed from, and only from these, with the base made from the arguments; implicitly where the base allows it; and its objects are copied and moved with their members.", "quantifier": "every base class, every list of arguments of all value categories, direct and copy initialisation", "why_tests_cant": "overload resolution between three templates and the compiler's constructors decides whether a copy is a copy", "anchors": ["include/macros.hpp:42"]}
{"id": "C99", "title": "The project's tests pass", "statement": "Each of the seven test programs ends with exit status 0 in every order of evaluation the standard allows, without undefined behaviour, with every clock that measures the sleep of ten milliseconds, every random generator and every call stack.", "quantifier": "both orders of evaluation, all clocks, generators, distributions, call stacks and outcomes of allocation in a factory", "why_tests_cant": "a test that fails or is undefined for a correct library says nothing about it", "anchors": ["test/test_lru_cache.cpp:43", "test/test_container.cpp:38", "test/test_array.cpp:52", "test/test_lazy.cpp:52", "test/test_stopwatch.cpp:45", "test/test_randomiser.cpp:46", "test/test_stack_trace.cpp:46"]}
{"id": "C100", "title": "Sequences of unsigned numbers are read as written and numbers that do not fit are rejected", "statement": "read_sequence into a container of unsigned numbers accepts exactly the bracketed separated lists of numbers that the element type represents, stores these numbers, and throws std::ios_base::failure on every other input with a non-blank character; what write_sequence writes is read back.", "quantifier": "every input, every range of the element type, all delimiters as in C20, all lists", "why_tests_cant": "a number that does not fit must not silently become another one", "anchors": ["include/stlio.hpp:144"]}
{"id": "C101", "title": "Handles of different threads may share objects", "statement": "If every thread uses only handles of its own (and handles that were sent to it), then no two threads access the same object at the same time unless both only read it, no thread accesses a deleted object, every thread sees the values it would see if its handles were values, an object is deleted exactly once and only after its last handle, and no thread waits for another.", "quantifier": "any number of threads, all programs, all schedules", "why_tests_cant": "handles are copied like values; sharing is an implementation detail that must not show in a program with threads", "anchors": ["include/handle.hpp:108", "include/handle.hpp:160"]}
{"id": "C102", "title": "elapsed_seconds is the double nearest to the reading", "statement": "elapsed_seconds() is the reading of the watch in seconds, rounded to the nearest double; it never decreases if the reading does not, has the sign of the reading, and different readings give different results.", "quantifier": "every reading of 64 bits, every unit", "why_tests_cant": "a measured time must not be changed by its conversion to seconds", "anchors": ["include/stopwatch.hpp:54"]}
{"id": "C103", "title": "One-time diagnostics are printed once also in programs with threads", "statement": "A call site of HELPER_WARN_ONCE or HELPER_DEPRECATED prints its message exactly once in all threads together if a thread reaches it at all, and without a data race.", "quantifier": "any number of threads, any number of visits of each, all schedules", "why_tests_cant": "a warning that is to appear once must not flood the output of a parallel program", "anchors": ["include/macros.hpp:166", "include/macros.hpp:149"]}
{"id": "C104", "title": "Randomisers can be used in several threads", "statement": "Randomisers called in several threads give values within their bounds, and all threads together get the successive values of the one engine, none of them twice.", "quantifier": "any number of threads, all lists of calls, all distributions and engines, all schedules", "why_tests_cant": "threads that draw the same values are not independent samples", "anchors": ["include/randomiser.hpp:59", "include/randomiser.hpp:71"]}
{"id": "C105", "title": "The result types of the operators on built-in types are closed and lose no values", "statement": "For built-in types, SumType, ProductType, QuotientType and ArithmeticType do not depend on the order of the types or the grouping of three; ArithmeticType<X1,X2> is closed under all operators and has every value of X1 and X2; sums and products in it are right, and comparisons are those of the numbers; the in-place types are those of the left operand.", "quantifier": "every platform the standard allows, all arithmetic types and pointers to objects, all values", "why_tests_cant": "generic code computes in these types and relies on them to hold its numbers", "anchors": ["include/metaprogramming.hpp:93", "include/metaprogramming.hpp:98", "include/metaprogramming.hpp:108", "include/metaprogramming.hpp:182"]}
{"id": "C106", "title": "CanAdd and its kin hold exactly where SumType and its kin exist", "statement": "For every class with overloads of an operator, CanAdd<A1,A2> holds if and only if SumType<A1,A2> is well-formed, and so for the other operators.", "quantifier": "all sets of overloads with parameters by value or reference, all template arguments X, const X and references to them, copyable and move-only classes", "why_tests_cant": "code that is constrained by the concept and declared with the alias must be usable whenever the concept holds", "anchors": ["include/metaprogramming.hpp:94", "include/metaprogramming.hpp:182"]}
{"id": "C107", "title": "Facade iterators work in loops and in the algorithms of the standard library", "statement": "Loops with !=, *, ++ or -- over a range of facade iterators use its elements in order and end; std::lower_bound finds the border of a partitioned range in as many turns as its length has binary digits; -> refers to what * refers to; and the facades have all operators that the iterator category they declare requires.", "quantifier": "every client class that acts as positions in a sequence, all ranges, all elements", "why_tests_cant": "the facades exist so that containers of clients can be used with standard algorithms", "anchors": ["include/iterator.hpp:58", "include/iterator.hpp:92"]}
{"id": "C108", "title": "A function memoised through an LRUCache is evaluated no more often than necessary", "statement": "A client that looks labels up and puts f(label) when they are absent always gets f(label); an access finds its label iff fewer than maximum_size different labels were accessed since its last access; a larger cache finds every label a smaller one finds; and the number of evaluations is within n/(n-k+1) (and a constant) of any strategy with k places, even one that knows the future.", "quantifier": "every function that gives equal results for labels the map takes to be equal (also one that throws), all access sequences, all sizes n and 1 <= k <= n", "why_tests_cant": "this is what the class is for; needs all histories", "anchors": ["include/lru_cache.hpp:56", "include/lru_cache.hpp:60", "include/lru_cache.hpp:80"]}
{"id": "C109", "title": "LRUCaches are values", "statement": "Copies of a cache are independent of it and behave as it would; moving takes the contents and leaves a usable empty cache of the same maximum size; references returned by get refer to one cache only, survive moves of it and are not shared by copies.", "quantifier": "all programs with any number of cache variables", "why_tests_cant": "the implicit copy and move operations must fit the representation", "anchors": ["include/lru_cache.hpp:105"]}
{"id": "C110", "title": "A handle constructed from an object holds a copy of the whole object", "statement": "Handle<I>(x) and make_handle<T>(args...) hold an object of the dynamic class of x with all its data, and the object that T(args...) would be, respectively.", "quantifier": "all class hierarchies, interfaces, static and dynamic classes, constness and value categories", "why_tests_cant": "which constructor runs depends on the static type of the argument", "anchors": ["include/handle.hpp: Handle constructors", "include/handle.hpp: make_handle"]}
{"id": "C111", "title": "Objects behind handles are deleted once, as objects of their class", "statement": "Every object behind handles is deleted exactly once, when its last handle goes, through a pointer whose type allows it.", "quantifier": "every history of constructions from objects and pointers, copies, moves, assignments, non-const accesses and destructions, with and without virtual destructor", "why_tests_cant": "which control block owns an object depends on the history", "anchors": ["include/handle.hpp: Handle constructors, make_unique"]}
{"id": "C112", "title": "Failed casts of handles report the object and its types", "statement": "A failed dynamic_handle_cast or dynamic_handle_extract throws std::bad_cast after writing one line to std::cerr with the function, the object, its static type, its dynamic type and the target type; a successful one writes nothing.", "quantifier": "all class hierarchies, objects, targets and _write functions", "why_tests_cant": "all hierarchies, user code included", "anchors": ["include/handle.hpp: write_error, dynamic_handle_cast, dynamic_handle_extract"]}
{"id": "C113", "title": "Lists of integers are read back in every locale", "statement": "A std::vector of integers, nested to any depth, that is written with operator<< to a stream is read back as written with operator>> from a stream with the same locale.", "quantifier": "every locale (separator and grouping of digits), every nested vector, every following text", "why_tests_cant": "a program that sets the global locale changes how every stream writes numbers", "anchors": ["include/stlio.hpp:144-190", "include/container.hpp:127-135"]}
{"id": "C114", "title": "Macro arguments arrive as written", "statement": "Each argument written in an invocation of a macro reaches its parameter as written, whatever commas it contains, and #parameter shows it as written; the macros that use HELPER_THROW pass it exactly three arguments.", "quantifier": "all arguments made of any number of tokens with matching parentheses, all literals", "why_tests_cant": "commas of template arguments or initialiser lists, and quotes within literals, must not change what is asserted or reported", "anchors": ["include/macros.hpp:42-177", "include/test.hpp:59-608"]}
{"id": "C115", "title": "Words and lists of truth values can share a stream", "statement": "Words and vectors of bool that are written one after the other, separated by blanks, to a string stream are read back from it in the same order as written.", "quantifier": "every sequence of words and vectors of bool, every initial setting of boolalpha", "why_tests_cant": "both operators use the stream's boolalpha flag, which outlives the operation", "anchors": ["include/binary_word.hpp:188-238", "include/stlio.hpp:144-190", "include/container.hpp:127-135"]}
{"id": "C116", "title": "The headers can be included in several translation units", "statement": "A program of any number of translation units, each of which includes any of the headers, has no conflicting definitions: each thing is defined once, or is an inline function or template that means the same in all units. The randomisers of the whole program share one engine.", "quantifier": "every number of units, every list of headers in each of them", "why_tests_cant": "the tests are programs of one unit each", "anchors": ["include/test.hpp:41-56", "include/randomiser.hpp:59-71", "src/stack_trace.cpp:42"]}
{"id": "C117", "title": "The headers can be included in any order", "statement": "Every header can be included alone, again, and before or after any others: the names it needs are declared by the headers that it includes.", "quantifier": "every list of headers in every order, every standard library with the usual declarations", "why_tests_cant": "a test includes few headers, in one order", "anchors": ["include/writable.hpp:36-40", "include/binary_word.hpp:77-103", "include/variant.inl.hpp:33-40", "include/stdlib.hpp:33-50"]}
{"id": "C118", "title": "SharedArrays can be copied and assigned in threads", "statement": "Threads that each use arrays of their own may copy and assign them even if the arrays share buffers: no buffer is used after it was freed, no buffer is freed twice or left behind, and the counter of a buffer is the number of its arrays.", "quantifier": "every number of threads, every program and every schedule", "why_tests_cant": "a test sees few schedules", "anchors": ["include/array.hpp:237-239"]}
{"id": "C119", "title": "Vectors of characters and of strings are read back", "statement": "A std::vector<char> or std::vector<std::string> that is written to a stream and read back gives the same vector.", "quantifier": "all vectors, whatever follows them", "why_tests_cant": "contents with blanks and brackets", "anchors": ["include/stlio.hpp:144-190", "include/container.hpp:127-135"]}
{"id": "C120", "title": "Vectors of doubles are read back", "statement": "A std::vector<double>, possibly nested, that is written to a stream and read back gives the same elements.", "quantifier": "all finite elements, every depth, every precision of the stream, whatever follows the vector", "why_tests_cant": "a test compares a few short decimal numbers, which survive", "anchors": ["include/stlio.hpp:144-190", "include/container.hpp:127-135"]}
{"id": "C121", "title": "An LRUCache can be looked up by several threads", "statement": "Lookups of an LRUCache (get, has_label and age) that several threads make at the same time give the answers they would give one after another, and leave a cache that can be used further.", "quantifier": "all caches, numbers of threads, sequences of lookups and schedules", "why_tests_cant": "a lookup looks as if it only read, and a single schedule in which calls do not overlap shows nothing", "anchors": ["include/lru_cache.hpp:56-76"]}
{"id": "C122", "title": "Calls of handles that throw have no effect", "statement": "A construction of a Handle or a non-const access that throws (because making the object, cloning it or allocating its control block fails) passes the exception on, changes no handle and no object, and deletes what it has made.", "quantifier": "every history of constructions from objects and pointers, copies, moves, assignments, non-const accesses and destructions, with every choice of the calls that fail, with and without virtual destructor", "why_tests_cant": "any call may fail, and a history goes on after it", "anchors": ["include/handle.hpp: Handle constructors, make_unique, make_handle"]}
{"id": "C123", "title": "Functions of Lazy variables can use Lazy variables", "statement": "The function of a Lazy may itself construct, copy, assign, move, destroy and evaluate Lazy variables, its own included: every object made is owned by a variable or has been deleted once, and a variable that has given an object gives the same one until it is changed.", "quantifier": "all functions, depths of nested evaluations and histories of clients", "why_tests_cant": "while the function of line 47 runs, the variable is in use, and runs that only evaluate do not change it", "anchors": ["include/lazy.hpp:44-52"]}
{"id": "C124", "title": "apply and elementwise can be given functions that change the list", "statement": "A function given to apply or elementwise may change the list: it is called once for each element that the list has when its turn comes, and the results are returned in order.", "quantifier": "all lists, functions and sequences of assignments, insertions, removals and reservations made in the calls", "why_tests_cant": "apply keeps iterators and elementwise an index across the calls, and functions that leave the list alone do not show it", "anchors": ["include/container.hpp:106-125"]}
{"id": "C125", "title": "A Handle on const objects gives no way to change them", "statement": "The value seen through a Handle<const I> stays the same until the handle is assigned to: its accessors and dynamic_handle_extract return const references and do not clone, and handles that share the object do not change it.", "quantifier": "every history of constructions, copies, assignments, conversions, accesses, extractions and writes, for const and non-const variables", "why_tests_cant": "which overload is called depends on the constness of the variable and of the object, and the effect on what is shared", "anchors": ["include/handle.hpp:82", "include/handle.hpp:108-110", "include/handle.hpp:145-169"]}
{"id": "C126", "title": "Results that refer to arguments can be kept", "statement": "The pointer or references returned by c_str, get_first to get_fifth, make_lpair, make_ltuple and CodedVariant::accept can be kept in a variable and read later, and show what the arguments have then.", "quantifier": "every call with variables, moved variables, variables that need a conversion, and values as arguments, followed by every sequence of declarations, assignments, ends of scope and further calls", "why_tests_cant": "a reference to a temporary object or to an object of the called function dangles, without any warning", "anchors": ["include/string.hpp:49-50", "include/tuple.hpp:43", "include/tuple.hpp:47", "include/tuple.hpp:50-54", "include/variant.inl.hpp:172-174"]}
{"id": "C127", "title": "The functions of the containers compile for all ordinary element types", "statement": "Every function and member function of container.hpp can be used with element types that can be copied, moved, compared, printed and default-constructed; those that do not copy, compare, print or default-construct elements can be used with types that do not provide this.", "quantifier": "every function of container.hpp and every choice of what the element types provide, for calls with variables", "why_tests_cant": "templates are checked only when they are used, so that an error in a body can stay unnoticed in a header", "anchors": ["include/container.hpp:51-327"]}
{"id": "C128", "title": "Randomisers can be used in the initialisers of global variables", "statement": "A global variable whose initialiser draws from a randomiser is initialised with a value drawn from a generator that has been seeded.", "quantifier": "any number of translation units, global variables, types of randomisers and orders of initialisation, and every choice by the linker", "why_tests_cant": "the generator is a static variable of each translation unit, but get() is a member of a template that is shared between them", "anchors": ["include/randomiser.hpp:42-59", "include/randomiser.hpp:66-72"]}
{"id": "C129", "title": "Vectors of all values of double are read back", "statement": "A std::vector<double>, possibly nested, that is written to a stream with enough digits and read back gives the same elements, whichever values of the type they are.", "quantifier": "all elements (subnormal numbers, the largest ones, zeros of both signs, infinities and NaN included), every depth, every precision, whatever follows the vector", "why_tests_cant": "the elements that are not read back are rare: infinities, and with some precisions a few of the largest numbers", "anchors": ["include/stlio.hpp:144-190", "include/container.hpp:127-135"]}
{"id": "C130", "title": "Recursive functions can be memoised through an LRUCache", "statement": "A recursive function whose calls of itself go through an LRUCache (put on a miss, then the reference returned by get) gives the right values, and each of them is computed once.", "quantifier": "all terminating recursions, values, exceptions thrown by the function, capacities and histories of calls", "why_tests_cant": "the references point into the cache, and the recursive calls made while a value is being computed change the cache: small arguments or a large cache show nothing", "anchors": ["include/lru_cache.hpp:56-93"]}
{"id": "C131", "title": "Casts of handles lead to one place in every class hierarchy", "statement": "A cast of a handle that succeeds leads to a public subobject of the object, of the class asked for; casting back leads to where it started from; dynamic_handle_extract<T> finds the T of a Wrapper<T,I>, and compiles for all classes T and I.", "quantifier": "all class hierarchies with repeated, virtual and non-public bases, all objects, subobjects and targets", "why_tests_cant": "the hierarchies of a test are few and simple; where a cast leads depends on how often, and through which bases, a class occurs", "anchors": ["include/handle.hpp:54-60", "include/handle.hpp:129-180"]}
{"id": "C132", "title": "Variants work with codes of every integer type", "statement": "With distinct codes of any integer types, a CodedVariant compiles with every visitor that can be called with all alternatives, and a variant built from an alternative holds it and no other one and dispatches to it.", "quantifier": "every platform, code type, list of alternatives, types and values of their codes, visitor and types of its results", "why_tests_cant": "the code is converted implicitly when it is stored, promoted for the switch, and converted again for ==, each time to another type", "anchors": ["include/variant.hpp:47-55", "include/variant.inl.hpp:37-174"]}
{"id": "C133", "title": "Lists of integers are read back whatever the format of the streams", "statement": "A std::vector of integers, nested to any depth, that is written with operator<< to a stream is read back as written with operator>> from a stream with the same format flags.", "quantifier": "every integral type, every combination of basefield, showbase, uppercase, showpos and width, every nested vector, every following text", "why_tests_cant": "the flags stay set after std::hex or std::setw; the library neither sets nor resets them", "anchors": ["include/stlio.hpp:144-190", "include/container.hpp:127-135"]}
{"id": "C134", "title": "Reading lists and words from streams with an exception mask", "statement": "If exceptions are switched on with exceptions(mask), operator>> reads vectors and binary words as from other streams, and whatever cannot be read gives a std::ios_base::failure.", "quantifier": "every mask, every text, vectors nested to any depth with items read by any operation of the stream, words, streams in any state", "why_tests_cant": "exceptions(failbit) is the usual way to find errors in input; read_sequence also throws by itself, and the reader of words goes on until get fails", "anchors": ["include/stlio.hpp:144-190", "include/binary_word.hpp:188-210"]}
{"id": "C135", "title": "Reading lists and words ends", "statement": "Reading a list, a list of lists, a word or a list of words from a stream with a finite text ends, in whatever state the stream is, whatever the text is, and whatever the exception mask. A list that is read has fewer items than characters have been consumed.", "quantifier": "All streams with a finite text, all nesting depths, all items read by an operation that does not lengthen the text, all masks.", "why_tests_cant": "A loop that does not end, or that appends items without consuming anything, would hang the program or exhaust its memory on malformed input.", "anchors": ["include/stlio.hpp:144-190", "include/binary_word.hpp:188-210", "include/binary_word.hpp:215-223"]}
{"id": "C136", "title": "Reading lists and words without skipping blanks", "statement": "From a stream with std::noskipws, lists and words are read as from other streams, except that blanks are refused: a list with a blank in it is refused by an exception, everything that is printed by the library is read back, and nothing else becomes undefined.", "quantifier": "All streams and texts, nested lists of integers, bools and words, vectors of characters, words one after the other.", "why_tests_cant": "The flag is part of the state of a stream, and formatted input of the elements obeys it.", "anchors": ["include/stlio.hpp:144-190", "include/stlio.hpp:278-283", "include/binary_word.hpp:188-210"]}
{"id": "C137", "title": "Words, lists, pairs, sets and maps as elements of sets, keys of maps and labels of caches", "statement": "The order of BinaryWord, and the orders of lists, pairs, sets and maps of things that can be ordered, are strict weak orders, so that all of these can be elements of Set, keys of Map and labels of LRUCache. Two of them are taken for the same key if and only if they have the same elements, and sets, maps and caches of them find exactly what has been put into them.", "quantifier": "All words, lists, pairs, sets and maps, nested to any depth, of any length, over any ordered element type.", "why_tests_cant": "std::set and std::map require a strict weak order; with any other relation their behaviour is undefined.", "anchors": ["include/container.hpp:71-71", "include/container.hpp:137-137", "include/container.hpp:161-161", "include/container.hpp:249-249", "include/binary_word.hpp:138-147", "include/lru_cache.hpp:107-107"]}
{"id": "C138", "title": "Writing to streams that stop taking characters, and elements that throw", "statement": "If the buffer of a stream stops taking characters while a container, pair, map or word is written, exactly the characters before that place arrive, badbit is set, and std::ios_base::failure is thrown if and only if the exception mask of the stream asks for it; an exception of the operator<< of an element is passed on, and what was written before it stays. The flags of the stream are afterwards as they were.", "quantifier": "All containers and elements that write through formatted output operations, all streams with any number of characters left, any exception mask, width, fill and state, and any behaviour that the standard allows to the sentry.", "why_tests_cant": "Full devices and closed pipes do not occur in tests, and the place of the failure can be anywhere in the text.", "anchors": ["include/stlio.hpp:56-71", "include/stlio.hpp:92-107", "include/stlio.hpp:211-216", "include/container.hpp:51-59", "include/container.hpp:127-135", "include/container.hpp:238-246", "include/container.hpp:292-300", "include/binary_word.hpp:228-238"]}
{"id": "C139", "title": "An LRUCache can memoise a function for several threads with a lock for every call", "statement": "If several threads access a cache by has_label, put of the value of a function on a miss, and get, each call being made under a lock, every access gives what the function gives, and nothing is undefined.", "quantifier": "All functions, labels, capacities, numbers of threads, sequences of accesses and interleavings of the calls.", "why_tests_cant": "Each call is safe by itself; only certain interleavings of the three calls of an access show what happens between them.", "anchors": ["include/lru_cache.hpp:56-56", "include/lru_cache.hpp:60-69", "include/lru_cache.hpp:80-93"]}
{"id": "C140", "title": "Loops over a SharedArray, and the life of its iterators", "statement": "A range-for loop over a SharedArray visits its elements in order and ends, and what its body writes through the references is seen by all arrays that share the buffer, and by no others. An iterator stays usable, for reading and for writing, exactly as long as the buffer has an owner, whatever is done to the array it was taken from.", "quantifier": "All histories of constructions, copies, assignments and writes (destruction is C34), all loop bodies that replace elements, all iterators and indices.", "why_tests_cant": "Iterators of a shared buffer outlive assignments to the array they come from in some cases and dangle in others.", "anchors": ["include/array.hpp:223-247"]}
{"id": "C141", "title": "A field width pads the text of a container, pair or word as a whole", "statement": "With std::setw, std::setfill, std::left and std::right, a vector, array, set, map, pair or word is padded as a string with the same text would be, and with blanks as padding it is read back as it was.", "quantifier": "All containers and words, all elements that write through formatted output operations, all widths, fill characters and adjustments.", "why_tests_cant": "The width is part of the state of the stream and is used up by the first output operation, which is only the beginning of the text.", "anchors": ["include/stlio.hpp:56-71", "include/stlio.hpp:92-107", "include/stlio.hpp:211-216", "include/container.hpp:51-59", "include/container.hpp:127-135", "include/container.hpp:238-246", "include/container.hpp:292-300", "include/binary_word.hpp:228-238"]}
{"id": "C142", "title": "Pointers from dynamic_pointer_extract own their object", "statement": "dynamic_pointer_extract returns for every pointer, null for null; the result is not null exactly if the object is a T or derives from it, and then it leads to the same object and keeps it alive, also when the handle and the pointer it came from are gone.", "quantifier": "All histories of operations on handles, pointers and references with extractions between them, all classes with public and unambiguous bases.", "why_tests_cant": "An extracted pointer that did not share the ownership would dangle only after the last other owner is gone.", "anchors": ["include/handle.hpp:173-180"]}
{"id": "C143", "title": "ResultOf<F(AS...)> is InvokeResult<F,AS...>", "statement": "For every type F and all types AS, ResultOf<F(AS...)> is well-formed if and only if InvokeResult<F,AS...> is, and then they are the same type.", "quantifier": "All types F and all lists of argument types, with const, pointers, arrays, functions and references; all programs.", "why_tests_cant": "The signature F(AS...) is a function type, which adjusts the types of its parameters; the usual uses have arguments that are not affected.", "anchors": ["include/metaprogramming.hpp:74-77"]}
{"id": "C144", "title": "A PairIterator can be dereferenced", "statement": "dereference() of a PairIterator compiles for all iterators and gives the two elements.", "quantifier": "all pairs of pointers and iterators of classes, all element types, class hierarchies and conversions", "why_tests_cant": "a member function of a template is compiled only when it is called, and no test calls this one; whether it compiles depends on both iterator types", "anchors": ["include/iterator.hpp:119", "include/iterator.hpp:132", "include/iterator.hpp:142-143"]}
{"id": "C145", "title": "Printing makes no copies and loses nothing when something throws", "statement": "os << v makes no copies of the elements of v. If copying or printing an element throws, every copy made before is destroyed, none twice, and a beginning of the text is on the stream.", "quantifier": "all nestings of arrays, shared arrays, vectors, lists, sets, maps, pairs and tuples; every copy and every element that may throw", "why_tests_cant": "copies are not seen in the text, and the tests print elements whose copies do not throw", "anchors": ["include/container.hpp:51-69", "include/container.hpp:127-135", "include/container.hpp:155-158", "include/container.hpp:238-246", "include/container.hpp:292-300", "include/stlio.hpp:193-223", "include/array.hpp:123-124", "include/array.hpp:231"]}
{"id": "C146", "title": "Real randomisers in floating point stay below their upper bound", "statement": "Every get() of a UniformRealRandomiser<double> or <float> built with min<max returns a value v with min<=v<max.", "quantifier": "all bounds that are numbers of the type (without overflow), all words of the engine, all sequences of draws, libraries that avoid a canonical number of 1 or not, compilers that fuse product and sum or not", "why_tests_cant": "the words of the engine that give the upper bound are rare for most intervals, and the tests draw a few values", "anchors": ["include/randomiser.hpp:56", "include/randomiser.hpp:66-77"]}
{"id": "C147", "title": "Integer randomisers give every value of their interval equally often", "statement": "Every get() of a UniformIntRandomiser built with min<=max returns, and its values are all those from min to max, each given by the same number of words of the engine.", "quantifier": "all bounds of all integer types of up to 64 bits, signed or not, all words of the engine, both algorithms of libstdc++", "why_tests_cant": "a slightly uneven distribution is not noticed in a few draws, and intervals close to the width of the type are not tested", "anchors": ["include/randomiser.hpp:56", "include/randomiser.hpp:66-72", "include/randomiser.hpp:79-82"]}
{"id": "C148", "title": "Random generators of different runs give different numbers", "statement": "Two generators that are constructed at different times or with different numbers of the random device give different sequences of words, and every seed is possible at any time.", "quantifier": "all numbers of the random device, all counts of the clocks, all widths of the seed's type, all seeds of the engine", "why_tests_cant": "whether two of 2^32 seeds give the same words cannot be tried out, and the tests run once", "anchors": ["include/randomiser.hpp:42-57"]}
{"id": "C149", "title": "HELPER_TEST_WITHIN decides the distance of numbers", "statement": "For numbers e, x and t of a type of C++, HELPER_TEST_WITHIN(e,x,t) passes iff |e-x| <= t, without undefined behaviour.", "quantifier": "all values of floating-point types of any precision and range, all int and unsigned numbers of 32 bits or more, all tolerances", "why_tests_cant": "the rounding of differences, the function that abs names and the wrapping of unsigned differences matter for a few numbers only", "anchors": ["include/test.hpp:306-321", "include/test.hpp:35-38"]}
{"id": "C150", "title": "The macros compare integers as numbers", "statement": "On integers of any two built-in types, HELPER_TEST_EQUAL, HELPER_TEST_EQUALS and HELPER_ASSERT_EQUAL pass iff the numbers are equal, HELPER_TEST_NOT_EQUAL iff they are not, and HELPER_TEST_LESS iff the first is less.", "quantifier": "every platform the standard allows, all pairs of integer types, all their values", "why_tests_cant": "pairs of types times values, on platforms that are not at hand", "anchors": ["include/test.hpp:260-337", "include/macros.hpp:138-144"]}
{"id": "C151", "title": "A printed PairIterator tells where it is", "statement": "Any PairIterator of pointers can be printed, and two of the same type print the same text only if they are equal.", "quantifier": "all memories, all pairs of pointers to characters and to other objects, all addresses", "why_tests_cant": "addresses differ from run to run, and whether a string ends depends on the memory behind it", "anchors": ["include/iterator.hpp:144-145"]}
