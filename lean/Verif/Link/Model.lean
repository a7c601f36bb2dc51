/-!
# Headers, translation units and programs

A model of what the preprocessor, the compiler and the linker make of the headers of the library,
as far as the order of inclusion, names that must be declared, and linkage are concerned.

Modelled: the `#include` lines and include guards of all headers in `/repo/include`; the
using-declarations at namespace scope and the names from elsewhere that a header needs to be
declared when it is read (a using-declaration `using std::x`, a type that is not declared in the
header, a call without arguments that depend on a template parameter); the variables and
non-template functions that headers define at namespace scope, with their linkage, and the member
template `RandomiserBase::get`, the only one that names a variable of namespace scope.

Not modelled: everything else that the compiler checks; macros (used by user code, not by the
headers themselves, except that `lru_cache.hpp` and `container.hpp` include `macros.hpp` first);
names that depend on template parameters, which are looked up when a template is used
(see `Verif.Lookup`).
-/

namespace Helper.Link

/-- The headers in `/repo/include`. -/
inductive Hdr
  | array | binaryWord | container | handle | iterator | lazy | lruCache | macros
  | metaprogramming | randomiser | range | stackTrace | stdlib | stlio | stopwatch | string
  | test | tuple | variant | variantInl | writable
  deriving DecidableEq, Repr

/-- The standard headers that are included in `/repo/include`. -/
inductive Std
  | cassert | chrono | cmath | concepts | cstddef | cstdlib | cstring | deque | exception
  | functional | initializerList | iomanip | iosfwd | iostream | iterator | limits | list | map
  | memory | random | set | sstream | stdexcept | string | tuple | typeTraits | utility
  | valarray | variant | vector
  deriving DecidableEq, Repr

/-- Names that a header needs when it is read. The first block are names of the standard library
(`globalSizeT` and `globalAbort` without `std::`), then the names of namespace `Helper` which one
header declares and another one uses. -/
inductive Nm
  | declval | sizeT | globalSizeT | ostream | istream | makeTuple | makePair | sharedPtr
  | function | vector | string | stringstream | map | initializerList | outOfRange | ioStreams
  | randomDevice | chrono | variant | globalAbort
  | stringType | stringStream
  | hDeclval | hSizeT | hOstream | hIstream | trueType | fallback | invocableReturning | oneOf
  | same | arrayClass | sharedArrayClass | hInitializerList | writeSequence | writableInterface
  deriving DecidableEq, Repr

/-- How a name of namespace scope is linked [basic.link]. `weak` are inline functions and
templates: they may be defined in several units if all definitions mean the same. -/
inductive Linkage
  | strong | weak | internal
  deriving DecidableEq, Repr

/-- The definitions at namespace scope. -/
inductive Ent
  | testFailures | testSkipped | testingClass | testCaseCounter
  | randomGenerator | randomiserGet
  | complement | wordMembers | makeBinaryWord | readWord | writeWord | writeError | cStr | classNameString
  | range1 | range2 | rangeBegin | rangeEnd | writeWritable
  | stackTraceFn
  deriving DecidableEq, Repr

/-- Linkage of the definitions.
* `test.hpp:41-43` and `:56`: `int HELPER_TEST_FAILURES = 0;` and so on, variables that are neither
  `static`, `const` nor `inline`: external linkage, one definition per program;
* `randomiser.hpp:59`: `static RandomGenerator RANDOM_GENERATOR;`: internal linkage;
* `randomiser.hpp:71`: a member function of a class template;
* the functions `array.hpp:249`, `binary_word.hpp:130-228` (the members as one entity `wordMembers`),
  `handle.hpp:123`, `string.hpp:49,57`, `range.hpp:52,53,63,64` and `writable.hpp:54` are `inline`;
* `src/stack_trace.cpp:42` or `:72`: `void stack_trace()`, an ordinary function. -/
def Ent.linkage : Ent → Linkage
  | .testFailures => .strong
  | .testSkipped => .strong
  | .testingClass => .strong
  | .testCaseCounter => .strong
  | .randomGenerator => .internal
  | .randomiserGet => .weak
  | .complement => .weak
  | .wordMembers => .weak
  | .makeBinaryWord => .weak
  | .readWord => .weak
  | .writeWord => .weak
  | .writeError => .weak
  | .cStr => .weak
  | .classNameString => .weak
  | .range1 => .weak
  | .range2 => .weak
  | .rangeBegin => .weak
  | .rangeEnd => .weak
  | .writeWritable => .weak
  | .stackTraceFn => .strong

/-- The variables of namespace scope that a definition names, `randomiser.hpp:71`:
`return this->_distribution(RANDOM_GENERATOR.engine());`. -/
def Ent.names : Ent → List Ent
  | .randomiserGet => [.randomGenerator]
  | _ => []

/-- A line of a header, in order. -/
inductive Line
  | inc (h : Hdr)
  | std (s : Std)
  | needs (n : Nm)
  | declares (n : Nm)
  | defines (e : Ent)
  deriving DecidableEq, Repr

/-- Whether the header starts with an include guard: all but `stdlib.hpp` (which begins with its
`#include` lines at line 33). -/
def guarded : Hdr → Bool
  | .stdlib => false
  | _ => true

/-- The text of the headers, see the header of this file for what is kept. -/
def text : Hdr → List Line
  -- array.hpp:38-48, 52, 95, 224, 249
  | .array => [.std .initializerList, .std .iterator, .std .stdexcept, .std .cassert,
      .inc .metaprogramming, .needs .sizeT, .declares .hSizeT, .needs .initializerList,
      .declares .hInitializerList, .needs .invocableReturning, .needs .outOfRange,
      .declares .arrayClass, .declares .sharedArrayClass, .defines .complement]
  -- binary_word.hpp:77-88, 92, 103, 130-181, 188, 215, 217, 228
  | .binaryWord => [.std .limits, .std .vector, .std .iosfwd, .std .stdexcept, .inc .macros,
      .inc .stlio, .needs .ostream, .needs .istream, .declares .hOstream, .declares .hIstream,
      .needs .vector, .needs .stringType, .defines .wordMembers, .defines .readWord, .needs .stringStream,
      .defines .makeBinaryWord, .defines .writeWord]
  -- container.hpp:38-51, 60, 70, 77, 153, 161, 311
  | .container => [.inc .stdlib, .inc .metaprogramming, .inc .stlio, .inc .array, .inc .macros,
      .needs .makeTuple, .needs .makePair, .needs .sizeT, .needs .hOstream, .needs .arrayClass,
      .needs .sharedArrayClass, .needs .vector, .needs .writeSequence, .needs .hInitializerList,
      .needs .map]
  -- handle.hpp:36-44, 123, 133
  | .handle => [.std .memory, .inc .stdlib, .inc .metaprogramming, .inc .writable,
      .needs .sharedPtr, .needs .hOstream, .needs .writableInterface, .needs .ioStreams,
      .defines .writeError, .needs .same]
  -- iterator.hpp:36-40, 138
  | .iterator => [.std .iterator, .needs .ostream, .declares .hOstream]
  -- lazy.hpp:36-42
  | .lazy => [.std .functional, .std .memory, .needs .function, .needs .sharedPtr]
  -- lru_cache.hpp:36-41, 106
  | .lruCache => [.std .map, .inc .macros, .needs .sizeT, .declares .hSizeT, .needs .map]
  -- macros.hpp:39-40
  | .macros => [.std .sstream, .std .stdexcept]
  -- metaprogramming.hpp:36-45, 86, 147-176
  | .metaprogramming => [.std .typeTraits, .std .concepts, .needs .declval, .needs .sizeT,
      .declares .hDeclval, .declares .hSizeT, .declares .trueType, .declares .fallback,
      .declares .same, .declares .invocableReturning, .declares .oneOf]
  -- randomiser.hpp:37-44, 59, 71
  | .randomiser => [.std .random, .std .chrono, .needs .randomDevice, .needs .chrono,
      .defines .randomGenerator, .defines .randomiserGet]
  -- range.hpp:36, 43, 52-53, 63-64
  | .range => [.std .cstddef, .needs .globalSizeT, .defines .range1, .defines .range2,
      .defines .rangeBegin, .defines .rangeEnd]
  -- stack_trace.hpp:34 (a declaration only)
  | .stackTrace => []
  -- stdlib.hpp:33-50
  | .stdlib => [.std .cassert, .std .cstring, .std .cmath, .std .exception, .std .stdexcept,
      .std .utility, .std .memory, .std .typeTraits, .std .iostream, .std .sstream, .std .string,
      .std .iomanip, .std .iterator, .std .initializerList, .std .vector, .std .list, .std .set,
      .std .map]
  -- stlio.hpp:36-54, 58, 153
  | .stlio => [.std .iostream, .std .stdexcept, .std .string, .std .tuple, .std .vector,
      .std .list, .std .deque, .std .valarray, .std .set, .std .map, .std .memory, .inc .array,
      .inc .tuple, .needs .ostream, .needs .istream, .declares .hOstream, .declares .hIstream,
      .declares .writeSequence, .needs .string, .needs .vector]
  -- stopwatch.hpp:36-40
  | .stopwatch => [.std .chrono, .needs .chrono]
  -- string.hpp:36-42, 49, 52, 57
  | .string => [.std .string, .std .sstream, .needs .string, .defines .cStr, .needs .stringstream,
      .defines .classNameString]
  -- test.hpp:35-43, 49, 56
  | .test => [.std .cstdlib, .std .cstring, .std .iostream, .std .exception, .inc .macros,
      .defines .testFailures, .defines .testSkipped, .needs .string, .defines .testingClass,
      .needs .ostream, .defines .testCaseCounter]
  -- tuple.hpp:36-46
  | .tuple => [.std .utility, .std .tuple, .needs .makePair, .needs .makeTuple]
  -- variant.hpp:38-45, 51
  | .variant => [.std .variant, .inc .metaprogramming, .needs .variant, .needs .oneOf]
  -- variant.inl.hpp:33, 40
  | .variantInl => [.inc .variant, .needs .globalAbort]
  -- writable.hpp:36-45, 54, 56
  | .writable => [.inc .metaprogramming, .needs .ostream, .declares .hOstream,
      .declares .writableInterface, .defines .writeWritable, .needs .hDeclval, .needs .trueType,
      .needs .fallback]

/-- A line after preprocessing. -/
inductive Tok
  | std (s : Std)
  | needs (n : Nm)
  | declares (n : Nm)
  | defines (e : Ent)
  deriving DecidableEq, Repr

/-- The preprocessor reads lines; `inc` is what it does with an included header. -/
def preLines (inc : List Hdr → Hdr → List Tok × List Hdr) :
    List Hdr → List Line → List Tok × List Hdr
  | seen, [] => ([], seen)
  | seen, .std s :: ls => let r := preLines inc seen ls; (.std s :: r.1, r.2)
  | seen, .needs n :: ls => let r := preLines inc seen ls; (.needs n :: r.1, r.2)
  | seen, .declares n :: ls => let r := preLines inc seen ls; (.declares n :: r.1, r.2)
  | seen, .defines e :: ls => let r := preLines inc seen ls; (.defines e :: r.1, r.2)
  | seen, .inc h :: ls =>
    let r := inc seen h
    let r' := preLines inc r.2 ls
    (r.1 ++ r'.1, r'.2)

/-- The preprocessor includes a header; `seen` are the headers whose guard macro is defined. A
header with a guard is skipped if its macro is defined, and defines it before its other lines
(`#ifndef HELPER_X_HPP` / `#define HELPER_X_HPP`). The number bounds the depth of nested includes
(a compiler has such a bound too); `C117_depth` shows that it is never reached. -/
def preInc : Nat → List Hdr → Hdr → List Tok × List Hdr
  | 0, seen, _ => ([], seen)
  | fuel + 1, seen, h =>
    if h ∈ seen then ([], seen)
    else preLines (preInc fuel) (if guarded h then h :: seen else seen) (text h)

/-- The depth of nested includes that is provided for. -/
def depth : Nat := 8

/-- A translation unit that includes the headers of the list, in order. -/
def unit (hs : List Hdr) : List Tok := (preLines (preInc depth) [] (hs.map .inc)).1

/-- A standard library: which names are declared by including a header. -/
abbrev Lib := Std → Nm → Bool

/-- Whether the line makes the name known. -/
def Tok.gives (lib : Lib) (n : Nm) : Tok → Bool
  | .std s => lib s n
  | .declares m => m == n
  | _ => false

/-- The compiler accepts the lines, given the lines `before`: each name is declared before it is
needed. -/
def accepts (lib : Lib) (before : List Tok) : List Tok → Bool
  | [] => true
  | .needs n :: ts => before.any (Tok.gives lib n) && accepts lib (.needs n :: before) ts
  | t :: ts => accepts lib (t :: before) ts

/-- The translation unit is compiled. -/
def compiles (lib : Lib) (hs : List Hdr) : Bool := accepts lib [] (unit hs)

/-- The definitions of a unit. -/
def defs : List Tok → List Ent
  | [] => []
  | .defines e :: ts => e :: defs ts
  | _ :: ts => defs ts

/-- A variable or function of the program: the entity, and for internal linkage the number of the
unit it belongs to [basic.link]/3. -/
def identity (e : Ent) (unitNo : Nat) : Ent × Option Nat :=
  if e.linkage = .internal then (e, some unitNo) else (e, none)

/-- All definitions in a program, each with the number of its unit. -/
def allDefs : Nat → List (List Ent) → List (Ent × Nat)
  | _, [] => []
  | n, u :: us => u.map (fun e => (e, n)) ++ allDefs (n + 1) us

/-- Two definitions are compatible [basic.def.odr]: they define different things, or the thing is
an inline function or template, the definitions are in different units, and the variables they name
are the same. -/
def compatible (d d' : Ent × Nat) : Bool :=
  if identity d.1 d.2 = identity d'.1 d'.2 then
    d.1.linkage = .weak && d.2 != d'.2
      && (d.1.names.map (fun v => identity v d.2) == d'.1.names.map (fun v => identity v d'.2))
  else true

/-- All pairs of definitions are compatible. -/
def linksDefs : List (Ent × Nat) → Bool
  | [] => true
  | d :: ds => ds.all (compatible d) && linksDefs ds

/-- The object file of the library, `src/stack_trace.cpp:42` or `:72`. -/
def libraryObject : List Ent := [.stackTraceFn]

/-- A program: the library and units that include the listed headers. -/
def wellLinked (units : List (List Hdr)) : Bool :=
  linksDefs (allDefs 0 (libraryObject :: units.map (fun hs => defs (unit hs))))

/-- The random engines of the program: the variables `RANDOM_GENERATOR` of its units. -/
def engines (units : List (List Hdr)) : List (Ent × Option Nat) :=
  ((allDefs 0 (units.map (fun hs => defs (unit hs)))).filter
    (fun d => d.1 == .randomGenerator)).map (fun d => identity d.1 d.2)

end Helper.Link
