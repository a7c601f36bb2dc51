#!/usr/bin/env python3
"""Writes /verif/properties.jsonl (one JSON object per line)."""
import json, os
P = []
def p(id, title, statement, quantifier, why, *anchors):
    P.append(dict(id=id, title=title, statement=statement, quantifier=quantifier,
                  why_tests_cant=why, anchors=list(anchors)))

H = "include/"
# ---------------------------------------------------------------- LRU cache
L = H+"lru_cache.hpp"
p("C01","LRUCache never exceeds its capacity",
  "After any sequence of has_label/get/age/put calls on a cache built with maximum size n>0, current_size() is the minimum of n and the number of puts that succeeded, and maximum_size() is still n.",
  "every n>0 and every finite history of calls, including calls that throw",
  "tests replay a handful of short histories; the bound must hold after every history of every length",
  f"{L}: LRUCache::put, current_size, maximum_size")
p("C02","LRUCache evicts exactly the least recently used label",
  "A put on a full cache removes exactly one label, the one whose most recent use (successful put or successful get) is the oldest among the labels present, and keeps every other label and its value; a put on a cache that is not full removes nothing. has_label and age do not count as uses.",
  "every capacity and every history of calls",
  "eviction order depends on the whole history of uses; tests check two or three interleavings",
  f"{L}: LRUCache::put, get")
p("C03","LRUCache::age counts the labels used more recently",
  "age(l) of a present label is the number of present labels whose last use is more recent than that of l; so the ages are exactly 0,...,current_size()-1, each once, and a just used label has age 0.",
  "every history of calls and every present label",
  "the ages form a permutation only as an inductive invariant over all histories",
  f"{L}: LRUCache::age, get, put")
p("C04","LRUCache lookups return the value last put",
  "get(l) succeeds iff l was put and has not been evicted since, and returns the value given to the most recent successful put of l; has_label(l) is true exactly in that case.",
  "every history of calls and every label",
  "requires relating the result to the whole earlier history",
  f"{L}: LRUCache::get, has_label, put")
p("C05","LRUCache calls that fail change nothing",
  "Constructing with size 0, get or age on an absent label and put on a present label throw std::runtime_error and leave every observable of the cache unchanged; no call made after a history of calls that did not throw during insertion has undefined behaviour.",
  "every history and every failing call",
  "absence of any effect and of undefined behaviour must be shown from every reachable state",
  f"{L}: LRUCache::LRUCache, get, age, put", H+"macros.hpp: HELPER_PRECONDITION, HELPER_ASSERT_MSG")
p("C06","References returned by LRUCache::get stay valid until eviction, also as an argument of put",
  "The reference returned by get(l) keeps denoting the same value until l is evicted, whatever else is called in between; passing it as the value of a later put stores that value, and passing a label that is part of it puts under that label.",
  "every history between taking and using the reference",
  "lifetime of a reference depends on all later evictions",
  f"{L}: LRUCache::get, put")
p("C07","LRUCache stays usable when storing an element throws",
  "If copying the value or label, or allocating the node, throws during put, the cache can still be used: later calls keep the LRU order of the remaining elements and have no undefined behaviour.",
  "every history with any number of puts whose insertion step throws",
  "needs every crash point in every history; tests inject no exceptions",
  f"{L}: LRUCache::put")
# ---------------------------------------------------------------- BinaryWord
B = H+"binary_word.hpp"
p("C08","BinaryWord::operator< is the lexicographic strict total order",
  "w<v holds iff w is a proper prefix of v, or at the first position where they differ w has 0 and v has 1; it is irreflexive, transitive and for distinct words exactly one of w<v, v<w holds.",
  "all pairs and triples of words of any length",
  "std::set and std::map keyed by words need the order laws for all triples",
  f"{B}: BinaryWord::operator<")
p("C09","is_prefix decides the prefix relation",
  "w.is_prefix(v) is true iff v is w followed by some word; the relation is reflexive, antisymmetric and transitive and never reads out of bounds.",
  "all words", "unbounded lengths", f"{B}: BinaryWord::is_prefix")
p("C10","is_subword decides the contiguous-factor relation",
  "w.is_subword(v) is true iff v can be written as p, then w, then s for some words p and s; no read is out of bounds.",
  "all words", "unbounded lengths and positions", f"{B}: BinaryWord::is_subword")
p("C11","erase_prefix removes exactly the requested prefix",
  "w.erase_prefix(k) removes the first min(max(k,0),w.size()) bits and keeps the rest in order.",
  "every word and every int k, including negative k and k beyond the size",
  "boundary values of k and of the size (which is converted to int) cannot be enumerated",
  f"{B}: BinaryWord::erase_prefix")
p("C12","append concatenates words",
  "w.append(b) adds one bit at the end; w.append(v) makes w the concatenation of w and v and terminates, also when v is w itself; other words are unchanged.",
  "all words, including the aliased call w.append(w)",
  "aliased and unbounded cases; non-termination cannot be observed by a finite test",
  f"{B}: BinaryWord::append")
p("C13","Writing a BinaryWord and reading it back gives the same word",
  "For every word w, BinaryWord(to_string(w)) equals w; the bracketed form [b0,b1,...] of w is also read back as w.",
  "every word of any length, the empty word included",
  "round trips must hold for all words",
  f"{B}: operator<<, operator>>, make_binary_word, BinaryWord::BinaryWord")
p("C14","Parsing a BinaryWord is defined for every string",
  "make_binary_word(s) terminates for every string: if the first non-blank character is '[' it behaves as reading a vector<bool> (possibly throwing std::ios_base::failure), otherwise it returns the longest run of 0/1 that starts at the first non-blank character; no indeterminate value is read.",
  "every string, including empty and blank ones",
  "all strings; reading an uninitialised variable is not observable in a test",
  f"{B}: operator>>, make_binary_word")
p("C15","Several words written to a stream can be read back one after the other",
  "Writing words separated by blanks and then extracting the same number of words with >> returns the same words in order.",
  "every finite sequence of words", "depends on stream state left by each extraction",
  f"{B}: operator<<, operator>>")
p("C16","Writing a BinaryWord leaves the stream's formatting unchanged",
  "os << w emits the digits of w and leaves the formatting state of os as it was, so later output on os is unaffected.",
  "every word and every initial stream state", "the effect is on all later output",
  f"{B}: operator<<")
p("C17","bytes() and set_back()",
  "bytes() is the least number of 8-bit bytes that can hold size() bits; set_back(x) on a non-empty word changes only the last bit, to x; on an empty word it has no defined behaviour.",
  "every word", "all lengths", f"{B}: BinaryWord::bytes, set_back")
# ---------------------------------------------------------------- stlio
S = H+"stlio.hpp"
p("C18","Sequence writers emit opening, separated items, closing",
  "write_sequence and write_pointer_sequence write the opening character, the items in order with the separator between consecutive items only, and the closing character; the stream operators for vector, Array, SharedArray, list and set write the same text with [ ] or { } and ','.",
  "every sequence length and every choice of delimiters", "off-by-one separators for all lengths",
  f"{S}: write_sequence, write_pointer_sequence", H+"container.hpp: operator<<(vector), operator<<(Array), operator<<(set), operator<<(list)")
p("C19","Reading back a written sequence of integers gives the same sequence",
  "read_sequence applied to the text produced by write_sequence (also through operator<< and operator>> of vector) with the same delimiters returns exactly the written sequence, replaces previous contents, and leaves the rest of the stream unread.",
  "every list of integers representable in the element type, any previous contents, any text following, any delimiters that are not blanks, digits or signs, with the closing character different from the separator",
  "round trip over all sequences", f"{S}: read_sequence, write_sequence, operator>>(vector)")
p("C20","read_sequence accepts exactly bracketed separated lists",
  "On every input with a non-blank character (delimiters that are not blanks, closing different from opening and separator), read_sequence terminates; it returns normally iff the input starts with opening, items separated by the separator, closing (blanks allowed before each token), storing exactly those items, and otherwise throws std::ios_base::failure.",
  "every input character sequence",
  "accept/reject over all strings, termination over all strings", f"{S}: read_sequence")
p("C21","read_sequence on blank input fails cleanly",
  "On an input without any non-blank character read_sequence throws std::ios_base::failure and reads no indeterminate value.",
  "every blank input", "use of an indeterminate value is not observable", f"{S}: read_sequence")
p("C22","Map, pair and tuple writers",
  "write_map_sequence writes opening, key descriptor value items separated by the separator, closing, for every map; operator<< of std::map writes '{ k:v, k:v }'; pairs and tuples of any arity are written as '(' items separated by ',' ')' in order.",
  "every map size, every tuple arity", "all sizes/arity",
  f"{S}: write_map_sequence, write_map_pointer_sequence, write_coefficient_map_sequence, write_tuple, operator<<(pair), operator<<(tuple)", H+"container.hpp: operator<<(map)")
# ---------------------------------------------------------------- Array
A = H+"array.hpp"
p("C23","Array behaves as a value: any history agrees with plain lists",
  "For every history of constructions (default, size, size+value, list, range, generator), copies, moves, assignments, resizes, reallocations, swaps, element writes, fills and destructions on any number of arrays, the contents of every live array are those obtained by the same operations on independent mathematical lists; a moved-from array is empty.",
  "every number of arrays and every finite history of operations within index bounds",
  "aliasing between arrays only shows in particular histories", f"{A}: Array (constructors, operator=, resize, reallocate, swap, fill, operator[])")
p("C24","Copies of an Array are independent",
  "After copy construction or copy assignment no operation on one array changes the contents of the other; swap exchanges the contents of exactly two arrays.",
  "every pair of arrays and later operation", "needs disjointness of storage in every reachable state",
  f"{A}: Array(const Array&), operator=(const Array&), swap")
p("C25","Array storage is released exactly once and never leaked",
  "In every history ending with all arrays destroyed, every element constructed is destroyed exactly once, every block allocated is freed exactly once, and no freed or unconstructed element is accessed.",
  "every history of Array operations", "leaks and double frees depend on the history; unit tests cannot see leaks",
  f"{A}: ~Array, operator=(Array&&), _destroy_elements, uninitialized_new, uninitialized_delete")
p("C26","resize keeps the common prefix",
  "After resize(n) or resize(n,t) the array has n elements, the first min(n,old size) are the old ones and the others are default-constructed or equal to t (also when t refers to an element of the array itself); after reallocate(n) with n different from the size all n elements are default-constructed, with n equal to the size nothing changes.",
  "every array and every n", "all sizes, growing and shrinking", f"{A}: resize, reallocate")
p("C27","Checked access throws exactly when out of range",
  "at(i) returns the i-th element when i<size() and throws std::out_of_range otherwise; operator[](i), front() and back() are defined exactly when the element exists.",
  "every array and index", "all indices", f"{A}: at, operator[], front, back")
p("C28","Array equality is element-wise equality",
  "a==b iff they have the same size and equal elements at every index; a!=b is its negation; the comparison never reads out of bounds.",
  "all pairs of arrays", "all sizes", f"{A}: operator==, operator!=")
p("C29","Array operations that throw leave the array destructible",
  "If an allocation or an element constructor throws during any Array operation, all arrays can still be destroyed without undefined behaviour.",
  "every history with a failure at any allocation or constructor call",
  "requires every crash point", f"{A}: operator=(const Array&), reallocate, resize, constructors")
p("C30","Array construction with a huge size fails cleanly",
  "Constructing an Array whose byte size does not fit in size_t throws instead of writing outside the allocated block.",
  "every size n and element size", "sizes near 2^64 cannot be tested by allocation",
  f"{A}: uninitialized_new, Array(size_t), Array(size_t,const T&)")
p("C31","fill and assign work with arguments taken from the array itself",
  "a.fill(a[i]) sets every element to the value a[i] had before the call; a.assign(first,last) makes a equal to the range, also when the range lies in a.",
  "every array, index and sub-range", "aliasing cases for all sizes", f"{A}: fill, assign")
p("C32","complement returns the indices not listed",
  "For strictly increasing vars with all entries below nmax, complement(nmax,vars) is the increasing list of the indices below nmax not in vars, and no access is out of bounds; for any other vars the function has no defined result.",
  "every nmax and every vars", "out-of-bounds writes for unsorted input only show for particular inputs",
  f"{A}: complement")
p("C33","SharedArray copies share one buffer and its count is the number of owners",
  "Copies of a SharedArray see each other's writes; the reference count of a buffer equals the number of SharedArrays that own it in every history of constructions, copies and assignments, and a buffer is freed by assignment exactly when its last owner is reassigned.",
  "every history of constructions, copies and assignments", "counts are a history invariant",
  f"{A}: SharedArray(const SharedArray&), SharedArray::operator=")
p("C34","Destroying SharedArrays frees each buffer exactly once",
  "Destroying a SharedArray decrements its count, frees buffer and count when the last owner goes, and accesses only memory it owns.",
  "every history including destructions", "undefined behaviour is not observable by a passing test",
  f"{A}: ~SharedArray")
# ---------------------------------------------------------------- containers
C = H+"container.hpp"
p("C35","Set queries answer membership questions",
  "contains(t) is true iff an element equivalent to t is in the set; free subset(s1,s2) iff every element of s1 is in s2; member s.subset(s2) iff every element of s2 is in s; disjoint (all four forms) iff there is no common element.",
  "all sets and lists over every type with a strict weak order", "all contents", f"{C}: Set::contains, subset, disjoint, contains(set)")
p("C36","Set algebra",
  "adjoin/join give the union, intersection (with set or list) the common elements, difference and remove the elements not in the argument, remove(t) removes just t, free restrict keeps the common elements.",
  "all sets, lists and elements", "all contents, erase-while-iterating loops", f"{C}: Set::adjoin, remove, join, intersection, difference, remove, restrict")
p("C37","Set::restrict keeps the elements that are in the argument",
  "After s.restrict(r) the set s holds exactly the elements that were in s and are in r (as the free function restrict does).",
  "all sets", "all contents", f"{C}: Set::restrict")
p("C38","Sets are iterated in increasing order without repetition",
  "Whatever operations built it, iterating a Set (and make_list of it) yields strictly increasing elements; make_set of a list holds exactly the elements of the list; conversion to a list and back is the identity.",
  "all sets built by any history of operations", "invariant over all histories", f"{C}: Set, make_list, make_set, operator List<T>")
p("C39","Map lookups and inserts",
  "get, value and const operator[] return the value bound to an equivalent key and throw std::runtime_error iff there is none; insert (all forms) binds an absent key and leaves a present key's value unchanged, the free insert returning the bound value; non-const operator[] inserts a default for an absent key; has_key tells presence.",
  "every map, key and value", "all contents", f"{C}: Map::get, value, operator[], insert, has_key, insert(Map&)")
p("C40","Map adjoin and join prefer existing bindings",
  "After m1.adjoin(m2), or in join(m1,m2), a key is bound iff bound in m1 or m2, to m1's value if bound in m1 and to m2's value otherwise.",
  "all pairs of maps", "all contents", f"{C}: Map::adjoin, join")
p("C41","Map keys, values, restriction and removal",
  "keys() is the set of bound keys; values() lists the bound values in increasing key order; restrict_keys(m,s) keeps exactly the bindings whose key is in s; remove_keys(s) removes exactly those.",
  "all maps and key sets", "all contents", f"{C}: Map::keys, values, remove_keys, restrict_keys")
p("C42","unique_elements and duplicate_elements",
  "unique_elements(l) iff no two positions of l hold equivalent elements; duplicate_elements(l) is the set of the elements that occur at least twice; the first holds iff the second is empty.",
  "all lists", "all contents and lengths", f"{C}: unique_elements, duplicate_elements")
p("C43","List append, concatenate and catenate",
  "append(t) adds t at the end; append(l), concatenate(l) and catenate(l1,l2) give the concatenation and terminate for every list, also for l.append(l) and for lists longer than 2^32.",
  "all lists, aliased or not", "non-termination and 2^32 lengths are out of reach of tests", f"{C}: List::append, concatenate, catenate")
p("C44","apply and elementwise map over lists",
  "apply(f,l) and elementwise(f,l) give f of each element in order, calling f once per element in order; the two-list form requires equal sizes (asserted) and gives f(l1[i],l2[i]) at each index.",
  "all functions (also stateful) and lists", "all lengths", f"{C}: apply, elementwise")
# ---------------------------------------------------------------- range, iterators
p("C45","Iterating a Range visits exactly its indices",
  "for(i : range(a,b)) visits a, a+1, ..., b-1, terminates after size() steps, and the i-th visited value is range[i]; start, stop, stride, size agree with that. When a>b size() and iteration wrap modulo 2^64.",
  "all 64-bit a and b", "2^128 pairs", H+"range.hpp: Range, RangeIterator, begin, end")
p("C46","Random-access IteratorFacade operators obey the iterator laws",
  "For every iterator class whose equal, distance_to and advance act as positions on a line, the facade's ==, !=, <, <=, >, >=, +, -, +=, -=, ++, -- behave as those of positions: (i+n)-i=n, (i+n)-n=i, i<j iff j-i>0, and so on, unless negating n overflows.",
  "every conforming iterator class, every position and offset", "all offsets including the extreme ptrdiff_t values", H+"iterator.hpp: IteratorFacade<RandomAccessTraversalTag>")
p("C47","Forward IteratorFacade and PairIterator",
  "For forward iterators ++i advances once and returns the new iterator, i++ advances once and returns the old one, == and != are opposite; a PairIterator compares equal iff both components are equal and advances both by the same offset.",
  "every conforming iterator class and position", "generic over all classes", H+"iterator.hpp: IteratorFacade<ForwardTraversalTag>, PairIterator")
# ---------------------------------------------------------------- Lazy
Z = H+"lazy.hpp"
p("C48","Lazy calls its factory at most once, on first use",
  "Constructing a Lazy calls nothing; the first evaluation calls the factory once and all later evaluations return the same object without calling it.",
  "every number of evaluations", "unbounded number of calls", f"{Z}: Lazy::operator()")
p("C49","Lazy recovers from a throwing factory and needs a non-null object",
  "If the factory throws, the exception propagates and the next evaluation tries again; the object returned is the first one successfully produced. A factory returning a null pointer has no defined behaviour.",
  "every sequence of factory outcomes", "all failure patterns", f"{Z}: Lazy::operator()")
p("C50","Lazy is safe to evaluate from several threads",
  "When several threads evaluate the same Lazy, the factory is called once and all threads get the same object, for every interleaving.",
  "every number of threads and every schedule", "schedules cannot be enumerated by tests", f"{Z}: Lazy::operator()")
p("C51","Copies of an evaluated Lazy share the object",
  "Copies made after the first evaluation return the same object without calling the factory; copies made before it each call the factory once.",
  "every history of copies and evaluations", "all histories", f"{Z}: Lazy")
# ---------------------------------------------------------------- Stopwatch
W = H+"stopwatch.hpp"
p("C52","Stopwatch measures from the last restart to the last click after it",
  "duration() is the time between the last restart (or construction) and the last click since, zero if none, truncated towards zero to the unit; it does not change between clicks and restarts.",
  "every history of restart/click/duration and every clock behaviour", "all histories", f"{W}: Stopwatch")
p("C53","Stopwatch readings are monotone and accurate",
  "If the clock never goes back, durations of successive clicks without a restart never decrease and are never negative, the reading is less than one unit below the true interval, and elapsed_seconds() is the reading expressed in seconds. Nothing prevents a negative reading if the clock goes back.",
  "every monotone clock and history", "all clock readings", f"{W}: Stopwatch::duration, elapsed_seconds")
# ---------------------------------------------------------------- Handle
D = H+"handle.hpp"
p("C54","Handles have value semantics",
  "A change made through the non-const reference(), ref(), pointer(), ptr() or managed_pointer() of a handle right after obtaining it is seen through that handle and through no other handle, in any history of constructions, copies, moves, assignments and changes.",
  "every history on any number of handles", "sharing depends on the history", f"{D}: Handle::reference, pointer, make_unique, copy/move")
p("C55","dynamic_handle_extract does not break value semantics",
  "A change made through the reference returned by the non-const dynamic_handle_extract is seen through no other handle.",
  "every history", "sharing depends on the history", f"{D}: dynamic_handle_extract(Handle<I>&)")
p("C56","A reference obtained from a handle stays usable",
  "A reference obtained from a handle stays valid and keeps denoting the handle's object as long as the handle is neither assigned, moved from nor destroyed.",
  "every history of calls on the handle", "dangling references are not observable reliably", f"{D}: Handle::reference, make_unique")
p("C57","dynamic_handle_cast and dynamic_handle_extract succeed exactly on matching types",
  "The cast succeeds iff the object's dynamic type is the target or derives from it, and the result shares the object; extract succeeds iff the object is a T or a Wrapper of T; otherwise std::bad_cast is thrown.",
  "all class hierarchies, objects and targets", "all hierarchies", f"{D}: dynamic_handle_cast, dynamic_handle_extract, dynamic_pointer_extract")
# ---------------------------------------------------------------- Variant, meta
p("C58","CodedVariant::accept visits the alternative whose code is stored",
  "For up to 16 alternatives with distinct codes, accept calls the visitor exactly once with the alternative whose code equals the stored code and aborts iff there is none; a variant built from an alternative holds that alternative, holds_alternative tells exactly that, and accept dispatches to it.",
  "every list of at most 16 alternatives with distinct codes, every stored code, every visitor", "17 hand-written overloads times all codes",
  H+"variant.hpp: CodedVariant, holds_alternative", H+"variant.inl.hpp: coded_visit, CodedVariant::accept")
p("C59","Type-list predicates",
  "AreAllSame<TS...> iff all types are equal; IsOneOf<T,US...> iff T occurs in US...; IndexOf<T,TS...>::N is the position of the first occurrence of T and does not exist if there is none; First and Second are the first two types.",
  "all type lists", "all lengths", H+"metaprogramming.hpp: AreAllSame, IsOneOf, IndexOf, First, Second")
p("C60","Assigning to make_lpair and make_ltuple assigns the named variables",
  "make_lpair(a,b)=make_pair(x,y) and make_ltuple(a1,...)=make_tuple(x1,...) set the variables to the values and change nothing else; with values taken from the same variables (as in swapping through make_pair) the old values are used. get_first..get_fifth select the corresponding component.",
  "all variables (aliased or not), values and arities", "aliasing", H+"tuple.hpp: make_lpair, make_ltuple, get_first, get_second, get_third, get_fourth, get_fifth")
# ---------------------------------------------------------------- macros/test
M = H+"macros.hpp"
p("C61","Assertion macros throw exactly when the condition is false",
  "HELPER_ASSERT, HELPER_ASSERT_MSG, HELPER_PRECONDITION, HELPER_PRECONDITION_MSG and HELPER_ASSERT_EQUAL throw std::runtime_error iff the condition evaluates to false, evaluate it exactly once when it holds, and the DEBUG forms do so without NDEBUG and evaluate nothing with NDEBUG.",
  "all conditions, also with side effects or throwing", "all programs", f"{M}: HELPER_ASSERT, HELPER_ASSERT_MSG, HELPER_PRECONDITION, HELPER_ASSERT_EQUAL, HELPER_DEBUG_ASSERT, HELPER_DEBUG_PRECONDITION")
p("C62","One-time diagnostics are printed once per call site",
  "HELPER_WARN_ONCE and HELPER_DEPRECATED print their message the first time their call site is reached and never again; distinct call sites are independent.",
  "every sequence of visits to any number of call sites", "all sequences", f"{M}: HELPER_WARN_ONCE, HELPER_DEPRECATED")
T = H+"test.hpp"
p("C63","The failure counter counts the failed checks",
  "After running any test program, HELPER_TEST_FAILURES equals the number of checks that failed plus the number of calls ended by a standard exception, and an exception inside HELPER_TEST_CALL ends only that call.",
  "every test program built from the macros, nested calls included", "the framework itself is tested by nothing", f"{T}: HELPER_TEST_CALL, HELPER_TEST_ASSERT, HELPER_TEST_EQUALS, HELPER_TEST_FAIL, HELPER_TEST_THROWS, HELPER_TEST_CATCH and the other macros")
p("C64","A test executable exits with 0 iff nothing failed",
  "A main that ends with 'return HELPER_TEST_FAILURES' has process exit status 0 iff no check failed.",
  "every number of failures", "large failure counts do not occur in tests of the library", f"{T}: HELPER_TEST_FAILURES", "test/test_lru_cache.cpp: main")
p("C65","Test macros evaluate the tested expression once when the check passes",
  "When a check passes, the tested and the expected expression are each evaluated exactly once; when it fails each is evaluated again only to print it, so the verdict is that of the first evaluation.",
  "all expressions with side effects", "all programs", f"{T}: HELPER_TEST_EQUAL, HELPER_TEST_EQUALS, HELPER_TEST_CHECK, HELPER_TEST_ASSERT, HELPER_TEST_LESS, HELPER_TEST_COMPARE")
p("C66","stack_trace writes one line per frame",
  "stack_trace() writes exactly one line for each of the (at most 128) innermost frames, whatever symbol information is available.",
  "all call stacks and symbol information", "all stacks, stripped binaries", "src/stack_trace.cpp: stack_trace")
p("C67","Randomisers return values in their interval from one shared engine",
  "Every get() of a UniformInt/UniformRealRandomiser built with min<=max returns a value in [min,max] (max excluded for reals), whatever other randomisers are used in between; all draws advance the same engine.",
  "every interleaving of draws on any number of randomisers, any seed", "random values", H+"randomiser.hpp: RandomiserBase, UniformIntRandomiser, UniformRealRandomiser, RandomGenerator")
p("C68","Writable objects and writers write through streams",
  "os << w writes exactly what the object's or writer's write function writes, and returns the stream so that chained output appears in order; a WritableTemporary must not outlive the writer and the object.",
  "every chain of writes", "all chains; dangling temporaries", H+"writable.hpp: operator<<, WriterInterface, Writer, WritableTemporary")
p("C69","to_string is what the stream operator writes",
  "to_string(t) and to_str(t) are the text os << t writes to a fresh stream with default formatting; for strings it is the identity; for integers it is injective.",
  "all values", "all values", H+"string.hpp: to_string, to_str, String")
# ---------------------------------------------------------------- added while modelling
p("C70","An Array cannot be built from a reversed range",
  "Constructing an Array from iterators first > last aborts at the assertion (or throws bad_alloc) and never yields an array.",
  "every pair of iterators into the same sequence in the wrong order, every element size", "the length is converted to size_t before it is checked",
  f"{A}: Array(ForwardIterator,ForwardIterator)")
p("C71","Objects made by a Lazy are deleted exactly once",
  "Each object made by a factory is owned by the Lazy it was made for and its later copies; it is deleted exactly once, when the last owner is destroyed, assigned to or moved from, and never before; copies and moves hand over the object as values do.",
  "every history of constructions, copies, moves, assignments, evaluations and destructions, every pattern of factory failures", "ownership depends on the history",
  "include/lazy.hpp: Lazy")
p("C72","Objects behind handles live exactly as long as they are owned",
  "An object behind a handle is alive exactly while some handle or shared pointer obtained from one owns it, and a live handle that is not empty can always be read; reading gives the class and value last written to its object.",
  "every history of constructions, copies, moves, assignments, destructions, accesses and pointer hand-outs, clones that throw included", "lifetimes depend on the history",
  "include/handle.hpp: Handle")
p("C73","CodedVariant::accept leaves a visitor passed by const reference unchanged",
  "accept(V const& v) does not change the visitor, and is defined for visitors that are const objects.",
  "every visitor, const or not, every stored code", "all visitors; a const_cast hides the change from the compiler",
  "include/variant.inl.hpp: CodedVariant::accept")
p("C74","HELPER_TEST_WITHIN compares the distance of its first two arguments with the tolerance",
  "HELPER_TEST_WITHIN(e,x,t) passes iff |e-x| <= t, for arguments written as any sums of terms.",
  "all sums as arguments", "all ways of writing the arguments", "include/test.hpp: HELPER_TEST_WITHIN")
p("C75","Randomisers can be deleted through their interface",
  "An object of any randomiser class held by a pointer to RandomiserInterface<T> can be deleted through that pointer.",
  "every class derived from RandomiserInterface", "interface classes elsewhere in the library have virtual destructors", H+"randomiser.hpp: RandomiserInterface")
p("C76","IsWritable tells which types can be written",
  "IsWritable<T> holds exactly if a T has a _write function that can be called with a stream, so that operator<< exists for exactly those types.",
  "all types, with any parameter of _write", "a property of all types", H+"writable.hpp: IsWritable, has_write, operator<<")
p("C77","Arrays of uninitialised elements hold what is constructed in them",
  "After Array(n,Uninitialised) and placement new at any indices, an index gives the value constructed there last; reading an index without an element is undefined, and so is destruction unless every index has one; destruction then frees the storage.",
  "every n, every sequence of constructions at indices below n", "all sequences, repeated constructions included", f"{A}: Array(size_t,Uninitialised), ~Array")
p("C78","A SharedArray constructor that throws has no effect",
  "If an allocation or the assignment of an element throws in a SharedArray constructor, the exception leaves the constructor and nothing stays allocated.",
  "all sizes, element values and points of failure", "all points of failure", f"{A}: SharedArray constructors")
p("C79","Converting constructors of Array convert element by element",
  "Array(Array<TT>), Array(Array<TT>,pr) and Array({doubles},pr) give an array of the same length whose elements are T(x) or T(x,pr) in order; the effects, exceptions included, are those of construction from the converted values.",
  "all lengths, conversions and points of failure", "all lengths and failures", f"{A}: Array(InitializerList<double>,PR), Array(const Array<TT>&), Array(const Array<TT>&,PR)")
p("C80","A LinkedList holds what it is constructed from and appended to",
  "The constructors of LinkedList give lists with the number of elements, the converted elements or the range asked for, and append adds one element at the end.",
  "all counts, lists, ranges and elements", "all lengths; counts beyond 2^32", H+"container.hpp: LinkedList")
p("C81","Container functions that throw leave a valid container",
  "If an operation of a standard container throws inside adjoin, remove, restrict, remove_keys, append or concatenate, the container is valid and is what the steps before the exception have made of it: nothing else is added or lost.",
  "all containers, arguments (the container itself included) and points of failure", "all points of failure", H+"container.hpp: Set, Map, List")
p("C82","Nested vectors and vectors of words read back",
  "A std::vector nested to any depth, of integers or of BinaryWords, written with operator<< and read with operator>> gives the same value and leaves the stream good just after the closing bracket, whatever follows.",
  "every depth, every nested vector, every following text","containers of containers are serialised this way; a reader that mixes up the brackets of two levels, or an item whose text is not accepted back, loses data",
  H+"stlio.hpp:144-190",H+"stlio.hpp:276-283",H+"container.hpp:127-135")

p("C83","The traits of callable types say what their names say",
  "IsInvocable<F,A...> and IsInvocableReturning<R,F,A...> hold iff f(a...) is a valid call, respectively one whose result converts to R; the concept InvocableReturning agrees; Convertible and ExplicitlyConvertible exclude each other and cover all constructible types.",
  "every assignment of calls, conversions and overloaded assignments to types","constructors of Array, List and Set are selected by these traits; a trait that is wrong silently removes or adds overloads",
  H+"metaprogramming.hpp:113-131",H+"metaprogramming.hpp:148-175")
p("C84","make_list and make_array hold the elements of the container they are given",
  "make_list(c) and make_array(c) have exactly the elements of the container c in order, for every container type of the library; a value that is no container becomes the only element.",
  "every container type, every element type, every contents","the overloads compete; if the generic one wins for a container, the result is a list with the container as its only element",
  H+"container.hpp:318-327")
p("C85","Constructing from a count gives that many elements",
  "Array<T>(n,x) has n elements equal to x and List<T>(n) has n default elements, for every arithmetic type of n and every element type T.",
  "every arithmetic type of the count, every element type, every n","the constructors from counts compete with those from values and iterators; choosing a different one changes the size of the result",
  A+":81-104",H+"container.hpp:80-87")

p("C86","Compositions of containers of printable types are printable",
  "os << x compiles for every x whose type is composed of the containers of the library and the standard ones, pairs and tuples, if its elements can be printed.",
  "every composition, of every depth, and every element type","a printer that cannot be found from the template that needs it makes printing a nested container a compile error far away from its cause",
  H+"container.hpp:51-69",H+"container.hpp:127-135",H+"container.hpp:155-158",H+"container.hpp:238-246",H+"container.hpp:292-300",H+"stlio.hpp:188-223")

p("C87","A failed read leaves the items read before the error",
  "If read_sequence throws, the container holds exactly the items of the text before the place where it stops being a sequence, in order and nothing of its previous contents; an exception of the reader of an item is passed on unchanged.",
  "every input with a non-blank character, every delimiters, every previous contents, every item type","callers that catch the exception may use or show what was read; items of an earlier read, or an item that was not read properly, must not be among them",
  H+"stlio.hpp:144-190")

p("C88","Loops over an Array and the life of its iterators",
  "A loop from begin() to end() ends and visits exactly the elements in order, and may replace them in place. An iterator keeps denoting the element with its index, of the array that has the storage, through every operation that does not change the size of its array: it follows moves and swaps; after a change of size by assignment, resize or reallocate, or destruction, every use of it is undefined; after a move assignment to its array it reads the old elements, which no array has any more.",
  "every array of every size, every element type, every operation and history, every index","Array's iterators are plain pointers, used by every algorithm and every range-for over arrays; using one after the storage has gone is memory corruption",
  A+":60-61,142,181-187")

p("C89","Factories that evaluate Lazy variables",
  "A factory may evaluate Lazy variables. Every evaluation returns if the factories terminate, the factory of a variable is called once, and every object returned by an evaluation, to the client or to a factory, stays until its variable gives it up.",
  "every number of variables, every factories, every nesting of evaluations, every history of evaluations","values computed on demand from each other are the reason to have Lazy; a cycle must not produce references to deleted objects",
  H+"lazy.hpp:47")

p("C90","Every failure is reported",
  "Every failure that the test macros count is reported on std::cerr with the file and the line of the macro, in the order of the failures; nothing else is written there but warnings and notifications.",
  "every test program over all the test macros with any nesting, branching and loops, every state, every values of the expressions","a failing test run without a message, or a message without a failure, hides the cause",
  H+"test.hpp:100",H+"test.hpp:114",H+"test.hpp:184",H+"test.hpp:260",H+"test.hpp:477")
p("C91","Texts of the test messages",
  "A failed check writes a message with the place, the kind of the check, the text of the expressions and the values that were compared to std::cerr, and the corresponding output to std::cout; a check that passes writes only to std::cout.",
  "every test macro, every expressions and values, every place, every state","the messages are all a developer sees of a failed test",
  H+"test.hpp:199",H+"test.hpp:260",H+"test.hpp:326",H+"test.hpp:402")

p("C92","Texts of the exceptions thrown by the assertion macros",
  "The text of the exception names its type, the place, the kind of assertion and the text of the expression, followed by the value of the message given to the macro.",
  "every macro, every place, every expression text, every message written with infix operators","the text of the exception is all that is reported of a violated assertion",
  H+"macros.hpp:49",H+"macros.hpp:56",H+"macros.hpp:95",H+"macros.hpp:125",H+"macros.hpp:130")
p("C93","Macro arguments are taken as units",
  "An expression given to a macro is evaluated as if it stood in parentheses wherever the macro uses it, in conditions as well as in messages.",
  "every argument made of operands and infix operators of any number and precedence","an operator in an argument that is weaker than those in the macro changes what is compared or shown",
  H+"macros.hpp:138",H+"macros.hpp:156",H+"test.hpp:69",H+"test.hpp:309")

p("C94","HELPER_TEST_GRID_TREE_SUBPAVING_ITERATOR counts the differences",
  "The macro counts one failure for each element that differs from the expected one and one if their number is not the expected one, and reads only elements that exist.",
  "every sequences of elements, every expected number, every state of the counters","it is the only loop among the test macros",
  H+"test.hpp:585")
p("C95","HELPER_CLEAN_TEST_VECTOR deletes each object once",
  "The macro deletes each object that the vector points to exactly once, leaves all others, and sets all pointers to null.",
  "every vector of pointers, every heap","a double delete is undefined behaviour, a missing one a leak",
  H+"test.hpp:600")

p("C96","Statement macros can be used as statements",
  "A use of a macro of macros.hpp or test.hpp that stands for a statement, with or without a semicolon after it, can be put wherever a statement can, and does then what the macro says as a single statement: write, throw if the condition is false, print once for that place, report a test, or construct a variable with a report.",
  "every function body made of user statements, blocks, if and else nested to any depth and uses of the macros, every history of calls","a macro that is not one statement changes the meaning of the code around it",
  H+"macros.hpp:56",H+"macros.hpp:149",H+"macros.hpp:156",H+"macros.hpp:166",H+"test.hpp:184",H+"test.hpp:402",H+"test.hpp:415")

p("C97","Arguments of macros mean the caller's variables",
  "The arguments of the macros are evaluated with the variables and functions that their names mean where the macro is used; a macro then does with the values what it is for: throw unless the condition holds, count a failure unless the test holds, and show the values of the arguments in messages.",
  "every macro of macros.hpp and test.hpp with arguments that are evaluated, all argument expressions and messages, every set of variables of the caller with all values","a macro that declares a name around its argument changes the meaning of the argument: a test may pass for all values",
  H+"macros.hpp:49",H+"macros.hpp:56",H+"macros.hpp:111",H+"macros.hpp:166",H+"test.hpp:184",H+"test.hpp:306",H+"test.hpp:386",H+"test.hpp:585",H+"test.hpp:600")

p("C98","HELPER_USING_CONSTRUCTORS gives a class the constructors of its base",
  "A class with HELPER_USING_CONSTRUCTORS(Class,Base) can be constructed from the arguments that the base can be constructed from, and only from these, with the base made from the arguments; implicitly where the base allows it; and its objects are copied and moved with their members.",
  "every base class, every list of arguments of all value categories, direct and copy initialisation","overload resolution between three templates and the compiler's constructors decides whether a copy is a copy",
  H+"macros.hpp:42")

p("C99","The project's tests pass",
  "Each of the seven test programs ends with exit status 0 in every order of evaluation the standard allows, without undefined behaviour, with every clock that measures the sleep of ten milliseconds, every random generator and every call stack.",
  "both orders of evaluation, all clocks, generators, distributions, call stacks and outcomes of allocation in a factory","a test that fails or is undefined for a correct library says nothing about it",
  "test/test_lru_cache.cpp:43","test/test_container.cpp:38","test/test_array.cpp:52","test/test_lazy.cpp:52","test/test_stopwatch.cpp:45","test/test_randomiser.cpp:46","test/test_stack_trace.cpp:46")

p("C100","Sequences of unsigned numbers are read as written and numbers that do not fit are rejected",
  "read_sequence into a container of unsigned numbers accepts exactly the bracketed separated lists of numbers that the element type represents, stores these numbers, and throws std::ios_base::failure on every other input with a non-blank character; what write_sequence writes is read back.",
  "every input, every range of the element type, all delimiters as in C20, all lists","a number that does not fit must not silently become another one",
  H+"stlio.hpp:144")

p("C101","Handles of different threads may share objects",
  "If every thread uses only handles of its own (and handles that were sent to it), then no two threads access the same object at the same time unless both only read it, no thread accesses a deleted object, every thread sees the values it would see if its handles were values, an object is deleted exactly once and only after its last handle, and no thread waits for another.",
  "any number of threads, all programs, all schedules","handles are copied like values; sharing is an implementation detail that must not show in a program with threads",
  H+"handle.hpp:108",H+"handle.hpp:160")

p("C102","elapsed_seconds is the double nearest to the reading",
  "elapsed_seconds() is the reading of the watch in seconds, rounded to the nearest double; it never decreases if the reading does not, has the sign of the reading, and different readings give different results.",
  "every reading of 64 bits, every unit","a measured time must not be changed by its conversion to seconds",
  H+"stopwatch.hpp:54")

p("C103","One-time diagnostics are printed once also in programs with threads",
  "A call site of HELPER_WARN_ONCE or HELPER_DEPRECATED prints its message exactly once in all threads together if a thread reaches it at all, and without a data race.",
  "any number of threads, any number of visits of each, all schedules","a warning that is to appear once must not flood the output of a parallel program",
  H+"macros.hpp:166",H+"macros.hpp:149")

p("C104","Randomisers can be used in several threads",
  "Randomisers called in several threads give values within their bounds, and all threads together get the successive values of the one engine, none of them twice.",
  "any number of threads, all lists of calls, all distributions and engines, all schedules","threads that draw the same values are not independent samples",
  H+"randomiser.hpp:59",H+"randomiser.hpp:71")

p("C105","The result types of the operators on built-in types are closed and lose no values",
  "For built-in types, SumType, ProductType, QuotientType and ArithmeticType do not depend on the order of the types or the grouping of three; ArithmeticType<X1,X2> is closed under all operators and has every value of X1 and X2; sums and products in it are right, and comparisons are those of the numbers; the in-place types are those of the left operand.",
  "every platform the standard allows, all arithmetic types and pointers to objects, all values","generic code computes in these types and relies on them to hold its numbers",
  H+"metaprogramming.hpp:93",H+"metaprogramming.hpp:98",H+"metaprogramming.hpp:108",H+"metaprogramming.hpp:182")

p("C106","CanAdd and its kin hold exactly where SumType and its kin exist",
  "For every class with overloads of an operator, CanAdd<A1,A2> holds if and only if SumType<A1,A2> is well-formed, and so for the other operators.",
  "all sets of overloads with parameters by value or reference, all template arguments X, const X and references to them, copyable and move-only classes","code that is constrained by the concept and declared with the alias must be usable whenever the concept holds",
  H+"metaprogramming.hpp:94",H+"metaprogramming.hpp:182")

p("C107","Facade iterators work in loops and in the algorithms of the standard library",
  "Loops with !=, *, ++ or -- over a range of facade iterators use its elements in order and end; std::lower_bound finds the border of a partitioned range in as many turns as its length has binary digits; -> refers to what * refers to; and the facades have all operators that the iterator category they declare requires.",
  "every client class that acts as positions in a sequence, all ranges, all elements","the facades exist so that containers of clients can be used with standard algorithms",
  H+"iterator.hpp:58",H+"iterator.hpp:92")

p("C108","A function memoised through an LRUCache is evaluated no more often than necessary",
  "A client that looks labels up and puts f(label) when they are absent always gets f(label); an access finds its label iff fewer than maximum_size different labels were accessed since its last access; a larger cache finds every label a smaller one finds; and the number of evaluations is within n/(n-k+1) (and a constant) of any strategy with k places, even one that knows the future.",
  "every function that gives equal results for labels the map takes to be equal (also one that throws), all access sequences, all sizes n and 1 <= k <= n","this is what the class is for; needs all histories",
  H+"lru_cache.hpp:56",H+"lru_cache.hpp:60",H+"lru_cache.hpp:80")
p("C109","LRUCaches are values",
  "Copies of a cache are independent of it and behave as it would; moving takes the contents and leaves a usable empty cache of the same maximum size; references returned by get refer to one cache only, survive moves of it and are not shared by copies.",
  "all programs with any number of cache variables","the implicit copy and move operations must fit the representation",
  H+"lru_cache.hpp:105")

p("C110","A handle constructed from an object holds a copy of the whole object",
  "Handle<I>(x) and make_handle<T>(args...) hold an object of the dynamic class of x with all its data, and the object that T(args...) would be, respectively.",
  "all class hierarchies, interfaces, static and dynamic classes, constness and value categories", "which constructor runs depends on the static type of the argument",
  "include/handle.hpp: Handle constructors", "include/handle.hpp: make_handle")
p("C111","Objects behind handles are deleted once, as objects of their class",
  "Every object behind handles is deleted exactly once, when its last handle goes, through a pointer whose type allows it.",
  "every history of constructions from objects and pointers, copies, moves, assignments, non-const accesses and destructions, with and without virtual destructor", "which control block owns an object depends on the history",
  "include/handle.hpp: Handle constructors, make_unique")
p("C112","Failed casts of handles report the object and its types",
  "A failed dynamic_handle_cast or dynamic_handle_extract throws std::bad_cast after writing one line to std::cerr with the function, the object, its static type, its dynamic type and the target type; a successful one writes nothing.",
  "all class hierarchies, objects, targets and _write functions", "all hierarchies, user code included",
  "include/handle.hpp: write_error, dynamic_handle_cast, dynamic_handle_extract")
p("C113","Lists of integers are read back in every locale",
  "A std::vector of integers, nested to any depth, that is written with operator<< to a stream is read back as written with operator>> from a stream with the same locale.",
  "every locale (separator and grouping of digits), every nested vector, every following text", "a program that sets the global locale changes how every stream writes numbers",
  H+"stlio.hpp:144-190",H+"container.hpp:127-135")
p("C114","Macro arguments arrive as written",
  "Each argument written in an invocation of a macro reaches its parameter as written, whatever commas it contains, and #parameter shows it as written; the macros that use HELPER_THROW pass it exactly three arguments.",
  "all arguments made of any number of tokens with matching parentheses, all literals", "commas of template arguments or initialiser lists, and quotes within literals, must not change what is asserted or reported",
  H+"macros.hpp:42-177",H+"test.hpp:59-608")
p("C115","Words and lists of truth values can share a stream",
  "Words and vectors of bool that are written one after the other, separated by blanks, to a string stream are read back from it in the same order as written.",
  "every sequence of words and vectors of bool, every initial setting of boolalpha", "both operators use the stream's boolalpha flag, which outlives the operation",
  H+"binary_word.hpp:188-238",H+"stlio.hpp:144-190",H+"container.hpp:127-135")
p("C116","The headers can be included in several translation units",
  "A program of any number of translation units, each of which includes any of the headers, has no conflicting definitions: each thing is defined once, or is an inline function or template that means the same in all units. The randomisers of the whole program share one engine.",
  "every number of units, every list of headers in each of them", "the tests are programs of one unit each",
  H+"test.hpp:41-56",H+"randomiser.hpp:59-71","src/stack_trace.cpp:42")
p("C117","The headers can be included in any order",
  "Every header can be included alone, again, and before or after any others: the names it needs are declared by the headers that it includes.",
  "every list of headers in every order, every standard library with the usual declarations", "a test includes few headers, in one order",
  H+"writable.hpp:36-40",H+"binary_word.hpp:77-103",H+"variant.inl.hpp:33-40",H+"stdlib.hpp:33-50")
p("C118","SharedArrays can be copied and assigned in threads",
  "Threads that each use arrays of their own may copy and assign them even if the arrays share buffers: no buffer is used after it was freed, no buffer is freed twice or left behind, and the counter of a buffer is the number of its arrays.",
  "every number of threads, every program and every schedule", "a test sees few schedules",
  H+"array.hpp:237-239")
p("C119","Vectors of characters and of strings are read back",
  "A std::vector<char> or std::vector<std::string> that is written to a stream and read back gives the same vector.",
  "all vectors, whatever follows them", "contents with blanks and brackets", H+"stlio.hpp:144-190",H+"container.hpp:127-135")
p("C120","Vectors of doubles are read back",
  "A std::vector<double>, possibly nested, that is written to a stream and read back gives the same elements.",
  "all finite elements, every depth, every precision of the stream, whatever follows the vector", "a test compares a few short decimal numbers, which survive",
  H+"stlio.hpp:144-190",H+"container.hpp:127-135")
p("C121","An LRUCache can be looked up by several threads",
  "Lookups of an LRUCache (get, has_label and age) that several threads make at the same time give the answers they would give one after another, and leave a cache that can be used further.",
  "all caches, numbers of threads, sequences of lookups and schedules", "a lookup looks as if it only read, and a single schedule in which calls do not overlap shows nothing",
  H+"lru_cache.hpp:56-76")
p("C122","Calls of handles that throw have no effect",
  "A construction of a Handle or a non-const access that throws (because making the object, cloning it or allocating its control block fails) passes the exception on, changes no handle and no object, and deletes what it has made.",
  "every history of constructions from objects and pointers, copies, moves, assignments, non-const accesses and destructions, with every choice of the calls that fail, with and without virtual destructor", "any call may fail, and a history goes on after it",
  "include/handle.hpp: Handle constructors, make_unique, make_handle")
p("C123","Functions of Lazy variables can use Lazy variables",
  "The function of a Lazy may itself construct, copy, assign, move, destroy and evaluate Lazy variables, its own included: every object made is owned by a variable or has been deleted once, and a variable that has given an object gives the same one until it is changed.",
  "all functions, depths of nested evaluations and histories of clients", "while the function of line 47 runs, the variable is in use, and runs that only evaluate do not change it",
  H+"lazy.hpp:44-52")
p("C124","apply and elementwise can be given functions that change the list",
  "A function given to apply or elementwise may change the list: it is called once for each element that the list has when its turn comes, and the results are returned in order.",
  "all lists, functions and sequences of assignments, insertions, removals and reservations made in the calls", "apply keeps iterators and elementwise an index across the calls, and functions that leave the list alone do not show it",
  H+"container.hpp:106-125")
p("C125","A Handle on const objects gives no way to change them",
  "The value seen through a Handle<const I> stays the same until the handle is assigned to: its accessors and dynamic_handle_extract return const references and do not clone, and handles that share the object do not change it.",
  "every history of constructions, copies, assignments, conversions, accesses, extractions and writes, for const and non-const variables", "which overload is called depends on the constness of the variable and of the object, and the effect on what is shared",
  H+"handle.hpp:82", H+"handle.hpp:108-110", H+"handle.hpp:145-169")
p("C126","Results that refer to arguments can be kept",
  "The pointer or references returned by c_str, get_first to get_fifth, make_lpair, make_ltuple and CodedVariant::accept can be kept in a variable and read later, and show what the arguments have then.",
  "every call with variables, moved variables, variables that need a conversion, and values as arguments, followed by every sequence of declarations, assignments, ends of scope and further calls", "a reference to a temporary object or to an object of the called function dangles, without any warning",
  H+"string.hpp:49-50", H+"tuple.hpp:43", H+"tuple.hpp:47", H+"tuple.hpp:50-54", H+"variant.inl.hpp:172-174")
p("C127","The functions of the containers compile for all ordinary element types",
  "Every function and member function of container.hpp can be used with element types that can be copied, moved, compared, printed and default-constructed; those that do not copy, compare, print or default-construct elements can be used with types that do not provide this.",
  "every function of container.hpp and every choice of what the element types provide, for calls with variables", "templates are checked only when they are used, so that an error in a body can stay unnoticed in a header",
  H+"container.hpp:51-327")
p("C128","Randomisers can be used in the initialisers of global variables",
  "A global variable whose initialiser draws from a randomiser is initialised with a value drawn from a generator that has been seeded.",
  "any number of translation units, global variables, types of randomisers and orders of initialisation, and every choice by the linker", "the generator is a static variable of each translation unit, but get() is a member of a template that is shared between them",
  H+"randomiser.hpp:42-59", H+"randomiser.hpp:66-72")
p("C129","Vectors of all values of double are read back",
  "A std::vector<double>, possibly nested, that is written to a stream with enough digits and read back gives the same elements, whichever values of the type they are.",
  "all elements (subnormal numbers, the largest ones, zeros of both signs, infinities and NaN included), every depth, every precision, whatever follows the vector", "the elements that are not read back are rare: infinities, and with some precisions a few of the largest numbers",
  H+"stlio.hpp:144-190",H+"container.hpp:127-135")
p("C130","Recursive functions can be memoised through an LRUCache",
  "A recursive function whose calls of itself go through an LRUCache (put on a miss, then the reference returned by get) gives the right values, and each of them is computed once.",
  "all terminating recursions, values, exceptions thrown by the function, capacities and histories of calls", "the references point into the cache, and the recursive calls made while a value is being computed change the cache: small arguments or a large cache show nothing",
  H+"lru_cache.hpp:56-93")
p("C131","Casts of handles lead to one place in every class hierarchy",
  "A cast of a handle that succeeds leads to a public subobject of the object, of the class asked for; casting back leads to where it started from; dynamic_handle_extract<T> finds the T of a Wrapper<T,I>, and compiles for all classes T and I.",
  "all class hierarchies with repeated, virtual and non-public bases, all objects, subobjects and targets", "the hierarchies of a test are few and simple; where a cast leads depends on how often, and through which bases, a class occurs",
  H+"handle.hpp:54-60",H+"handle.hpp:129-180")
p("C132","Variants work with codes of every integer type",
  "With distinct codes of any integer types, a CodedVariant compiles with every visitor that can be called with all alternatives, and a variant built from an alternative holds it and no other one and dispatches to it.",
  "every platform, code type, list of alternatives, types and values of their codes, visitor and types of its results", "the code is converted implicitly when it is stored, promoted for the switch, and converted again for ==, each time to another type",
  H+"variant.hpp:47-55", H+"variant.inl.hpp:37-174")
p("C133","Lists of integers are read back whatever the format of the streams",
  "A std::vector of integers, nested to any depth, that is written with operator<< to a stream is read back as written with operator>> from a stream with the same format flags.",
  "every integral type, every combination of basefield, showbase, uppercase, showpos and width, every nested vector, every following text", "the flags stay set after std::hex or std::setw; the library neither sets nor resets them",
  H+"stlio.hpp:144-190",H+"container.hpp:127-135")
p("C134","Reading lists and words from streams with an exception mask",
  "If exceptions are switched on with exceptions(mask), operator>> reads vectors and binary words as from other streams, and whatever cannot be read gives a std::ios_base::failure.",
  "every mask, every text, vectors nested to any depth with items read by any operation of the stream, words, streams in any state", "exceptions(failbit) is the usual way to find errors in input; read_sequence also throws by itself, and the reader of words goes on until get fails",
  H+"stlio.hpp:144-190",H+"binary_word.hpp:188-210")
p("C135","Reading lists and words ends",
  "Reading a list, a list of lists, a word or a list of words from a stream with a finite text ends, in whatever state the stream is, whatever the text is, and whatever the exception mask. A list that is read has fewer items than characters have been consumed.",
  "All streams with a finite text, all nesting depths, all items read by an operation that does not lengthen the text, all masks.",
  "A loop that does not end, or that appends items without consuming anything, would hang the program or exhaust its memory on malformed input.",
  H+"stlio.hpp:144-190",H+"binary_word.hpp:188-210",H+"binary_word.hpp:215-223")
p("C136","Reading lists and words without skipping blanks",
  "From a stream with std::noskipws, lists and words are read as from other streams, except that blanks are refused: a list with a blank in it is refused by an exception, everything that is printed by the library is read back, and nothing else becomes undefined.",
  "All streams and texts, nested lists of integers, bools and words, vectors of characters, words one after the other.",
  "The flag is part of the state of a stream, and formatted input of the elements obeys it.",
  H+"stlio.hpp:144-190",H+"stlio.hpp:278-283",H+"binary_word.hpp:188-210")
p("C137","Words, lists, pairs, sets and maps as elements of sets, keys of maps and labels of caches",
  "The order of BinaryWord, and the orders of lists, pairs, sets and maps of things that can be ordered, are strict weak orders, so that all of these can be elements of Set, keys of Map and labels of LRUCache. Two of them are taken for the same key if and only if they have the same elements, and sets, maps and caches of them find exactly what has been put into them.",
  "All words, lists, pairs, sets and maps, nested to any depth, of any length, over any ordered element type.",
  "std::set and std::map require a strict weak order; with any other relation their behaviour is undefined.",
  H+"container.hpp:71-71",H+"container.hpp:137-137",H+"container.hpp:161-161",H+"container.hpp:249-249",H+"binary_word.hpp:138-147",H+"lru_cache.hpp:107-107")
p("C138","Writing to streams that stop taking characters, and elements that throw",
  "If the buffer of a stream stops taking characters while a container, pair, map or word is written, exactly the characters before that place arrive, badbit is set, and std::ios_base::failure is thrown if and only if the exception mask of the stream asks for it; an exception of the operator<< of an element is passed on, and what was written before it stays. The flags of the stream are afterwards as they were.",
  "All containers and elements that write through formatted output operations, all streams with any number of characters left, any exception mask, width, fill and state, and any behaviour that the standard allows to the sentry.",
  "Full devices and closed pipes do not occur in tests, and the place of the failure can be anywhere in the text.",
  H+"stlio.hpp:56-71",H+"stlio.hpp:92-107",H+"stlio.hpp:211-216",H+"container.hpp:51-59",H+"container.hpp:127-135",H+"container.hpp:238-246",H+"container.hpp:292-300",H+"binary_word.hpp:228-238")
p("C139","An LRUCache can memoise a function for several threads with a lock for every call",
  "If several threads access a cache by has_label, put of the value of a function on a miss, and get, each call being made under a lock, every access gives what the function gives, and nothing is undefined.",
  "All functions, labels, capacities, numbers of threads, sequences of accesses and interleavings of the calls.",
  "Each call is safe by itself; only certain interleavings of the three calls of an access show what happens between them.",
  H+"lru_cache.hpp:56-56",H+"lru_cache.hpp:60-69",H+"lru_cache.hpp:80-93")
p("C140","Loops over a SharedArray, and the life of its iterators",
  "A range-for loop over a SharedArray visits its elements in order and ends, and what its body writes through the references is seen by all arrays that share the buffer, and by no others. An iterator stays usable, for reading and for writing, exactly as long as the buffer has an owner, whatever is done to the array it was taken from.",
  "All histories of constructions, copies, assignments and writes (destruction is C34), all loop bodies that replace elements, all iterators and indices.",
  "Iterators of a shared buffer outlive assignments to the array they come from in some cases and dangle in others.",
  H+"array.hpp:223-247")
p("C141","A field width pads the text of a container, pair or word as a whole",
  "With std::setw, std::setfill, std::left and std::right, a vector, array, set, map, pair or word is padded as a string with the same text would be, and with blanks as padding it is read back as it was.",
  "All containers and words, all elements that write through formatted output operations, all widths, fill characters and adjustments.",
  "The width is part of the state of the stream and is used up by the first output operation, which is only the beginning of the text.",
  H+"stlio.hpp:56-71",H+"stlio.hpp:92-107",H+"stlio.hpp:211-216",H+"container.hpp:51-59",H+"container.hpp:127-135",H+"container.hpp:238-246",H+"container.hpp:292-300",H+"binary_word.hpp:228-238")
p("C142","Pointers from dynamic_pointer_extract own their object",
  "dynamic_pointer_extract returns for every pointer, null for null; the result is not null exactly if the object is a T or derives from it, and then it leads to the same object and keeps it alive, also when the handle and the pointer it came from are gone.",
  "All histories of operations on handles, pointers and references with extractions between them, all classes with public and unambiguous bases.",
  "An extracted pointer that did not share the ownership would dangle only after the last other owner is gone.",
  H+"handle.hpp:173-180")
p("C143","ResultOf<F(AS...)> is InvokeResult<F,AS...>",
  "For every type F and all types AS, ResultOf<F(AS...)> is well-formed if and only if InvokeResult<F,AS...> is, and then they are the same type.",
  "All types F and all lists of argument types, with const, pointers, arrays, functions and references; all programs.",
  "The signature F(AS...) is a function type, which adjusts the types of its parameters; the usual uses have arguments that are not affected.",
  H+"metaprogramming.hpp:74-77")
p("C144","A PairIterator can be dereferenced",
  "dereference() of a PairIterator compiles for all iterators and gives the two elements.",
  "all pairs of pointers and iterators of classes, all element types, class hierarchies and conversions", "a member function of a template is compiled only when it is called, and no test calls this one; whether it compiles depends on both iterator types",
  H+"iterator.hpp:119", H+"iterator.hpp:132", H+"iterator.hpp:142-143")
p("C145","Printing makes no copies and loses nothing when something throws",
  "os << v makes no copies of the elements of v. If copying or printing an element throws, every copy made before is destroyed, none twice, and a beginning of the text is on the stream.",
  "all nestings of arrays, shared arrays, vectors, lists, sets, maps, pairs and tuples; every copy and every element that may throw",
  "copies are not seen in the text, and the tests print elements whose copies do not throw",
  H+"container.hpp:51-69", H+"container.hpp:127-135", H+"container.hpp:155-158", H+"container.hpp:238-246", H+"container.hpp:292-300", H+"stlio.hpp:193-223", H+"array.hpp:123-124", H+"array.hpp:231")
p("C146","Real randomisers in floating point stay below their upper bound",
  "Every get() of a UniformRealRandomiser<double> or <float> built with min<max returns a value v with min<=v<max.",
  "all bounds that are numbers of the type (without overflow), all words of the engine, all sequences of draws, libraries that avoid a canonical number of 1 or not, compilers that fuse product and sum or not",
  "the words of the engine that give the upper bound are rare for most intervals, and the tests draw a few values",
  H+"randomiser.hpp:56", H+"randomiser.hpp:66-77")
p("C147","Integer randomisers give every value of their interval equally often",
  "Every get() of a UniformIntRandomiser built with min<=max returns, and its values are all those from min to max, each given by the same number of words of the engine.",
  "all bounds of all integer types of up to 64 bits, signed or not, all words of the engine, both algorithms of libstdc++",
  "a slightly uneven distribution is not noticed in a few draws, and intervals close to the width of the type are not tested",
  H+"randomiser.hpp:56", H+"randomiser.hpp:66-72", H+"randomiser.hpp:79-82")
p("C148","Random generators of different runs give different numbers",
  "Two generators that are constructed at different times or with different numbers of the random device give different sequences of words, and every seed is possible at any time.",
  "all numbers of the random device, all counts of the clocks, all widths of the seed's type, all seeds of the engine",
  "whether two of 2^32 seeds give the same words cannot be tried out, and the tests run once",
  H+"randomiser.hpp:42-57")
p("C149","HELPER_TEST_WITHIN decides the distance of numbers",
  "For numbers e, x and t of a type of C++, HELPER_TEST_WITHIN(e,x,t) passes iff |e-x| <= t, without undefined behaviour.",
  "all values of floating-point types of any precision and range, all int and unsigned numbers of 32 bits or more, all tolerances",
  "the rounding of differences, the function that abs names and the wrapping of unsigned differences matter for a few numbers only",
  H+"test.hpp:306-321", H+"test.hpp:35-38")
p("C150","The macros compare integers as numbers",
  "On integers of any two built-in types, HELPER_TEST_EQUAL, HELPER_TEST_EQUALS and HELPER_ASSERT_EQUAL pass iff the numbers are equal, HELPER_TEST_NOT_EQUAL iff they are not, and HELPER_TEST_LESS iff the first is less.",
  "every platform the standard allows, all pairs of integer types, all their values",
  "pairs of types times values, on platforms that are not at hand",
  H+"test.hpp:260-337", H+"macros.hpp:138-144")
p("C151","A printed PairIterator tells where it is",
  "Any PairIterator of pointers can be printed, and two of the same type print the same text only if they are equal.",
  "all memories, all pairs of pointers to characters and to other objects, all addresses",
  "addresses differ from run to run, and whether a string ends depends on the memory behind it",
  H+"iterator.hpp:144-145")
out=os.path.join(os.path.dirname(os.path.dirname(os.path.abspath(__file__))),"properties.jsonl")
with open(out,"w") as f:
    for x in P: f.write(json.dumps(x)+"\n")
print(len(P))
