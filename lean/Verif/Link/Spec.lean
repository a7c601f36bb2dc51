import Verif.Link.Model

/-!
# What including headers should mean

Sets only: no order, no guards, no preprocessing.
-/

namespace Helper.Link

/-- All headers that are read when a header is included, directly or through others, each listed
once, from the `#include "…"` lines of the headers. -/
def under : Hdr → List Hdr
  | .array => [.metaprogramming, .array]
  | .binaryWord => [.macros, .metaprogramming, .array, .tuple, .stlio, .binaryWord]
  | .container => [.stdlib, .metaprogramming, .array, .tuple, .stlio, .macros, .container]
  | .handle => [.stdlib, .metaprogramming, .writable, .handle]
  | .iterator => [.iterator]
  | .lazy => [.lazy]
  | .lruCache => [.macros, .lruCache]
  | .macros => [.macros]
  | .metaprogramming => [.metaprogramming]
  | .randomiser => [.randomiser]
  | .range => [.range]
  | .stackTrace => [.stackTrace]
  | .stdlib => [.stdlib]
  | .stlio => [.metaprogramming, .array, .tuple, .stlio]
  | .stopwatch => [.stopwatch]
  | .string => [.string]
  | .test => [.macros, .test]
  | .tuple => [.tuple]
  | .variant => [.metaprogramming, .variant]
  | .variantInl => [.metaprogramming, .variant, .variantInl]
  | .writable => [.metaprogramming, .writable]

/-- Including `h` includes the standard header `s`. -/
def ReadsStd (h : Hdr) (s : Std) : Prop := ∃ g ∈ under h, Line.std s ∈ text g

/-- Including `h` defines `e`. -/
def Defines (h : Hdr) (e : Ent) : Prop := ∃ g ∈ under h, Line.defines e ∈ text g

/-- Names that the standard headers declare: those the standard asks for, and
`std::declval` and `std::size_t` in `<type_traits>`, `::size_t` in `<cstddef>`, `std::size_t` in
`<map>`, `std::ostream` in `<iterator>` and `std::string` in `<iostream>`, which it does not ask for
(implementations provide them, since these headers need them). -/
def usual : Std → List Nm
  | .cstddef => [.sizeT, .globalSizeT]
  | .cstring => [.sizeT]
  | .cstdlib => [.sizeT]
  | .typeTraits => [.declval, .sizeT]
  | .utility => [.makePair, .declval]
  | .tuple => [.makeTuple]
  | .memory => [.sharedPtr]
  | .functional => [.function]
  | .vector => [.vector]
  | .map => [.map, .sizeT]
  | .string => [.string]
  | .sstream => [.stringstream]
  | .iostream => [.ostream, .istream, .ioStreams, .string]
  | .iosfwd => [.ostream, .istream]
  | .iterator => [.ostream]
  | .random => [.randomDevice]
  | .chrono => [.chrono]
  | .variant => [.variant]
  | .initializerList => [.initializerList]
  | .stdexcept => [.outOfRange]
  | _ => []

/-- A standard library that declares at least the usual names in each header, and perhaps others,
but no name `StringType`. -/
structure Usual (lib : Lib) : Prop where
  least : ∀ s, ∀ n ∈ usual s, lib s n = true
  noStringType : ∀ s, lib s .stringType = false

/-- When some header of the list has been included, possibly with others, the standard headers read
declare the name. -/
def Brings (lib : Lib) (hs : List Hdr) (n : Nm) : Prop :=
  ∃ h ∈ hs, ∃ s, ReadsStd h s ∧ lib s n = true

/-- At most one of the elements satisfies the condition. -/
def AtMostOne {α : Type} (p : α → Prop) (l : List α) : Prop :=
  ∀ (a b c : List α) (x y : α), l = a ++ x :: b ++ y :: c → ¬ (p x ∧ p y)

end Helper.Link
