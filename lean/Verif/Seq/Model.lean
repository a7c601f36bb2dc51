import Verif.Stream.Model
/-!
# Model of `include/stlio.hpp` and of the printers of `include/container.hpp`

Items are written by their own `operator<<`, given as a function `wr : OStream → T → OStream`, and
read by their own `operator>>`, given as `rd : IStream → T × IStream`. Iteration over a range is
iteration over the list of its elements.
-/
namespace Helper.Seq

variable {T : Type u} {K : Type v}

/-- stlio.hpp:62-68, the loop of `write_sequence`. -/
def writeItems (wr : OStream → T → OStream) (separator : Char) : OStream → List T → OStream
  | os, [] => os
  | os, x :: t =>
    let os := wr os x
    match t with
    | [] => os
    | _ :: _ => writeItems wr separator (os.putChar separator) t

/-- stlio.hpp:56-71 `write_sequence`. -/
def writeSequence (wr : OStream → T → OStream) (os : OStream) (xs : List T)
    (opening closing separator : Char) : OStream :=
  (writeItems wr separator (os.putChar opening) xs).putChar closing

/-- stlio.hpp:74-89 `write_pointer_sequence`: the items are pointers; a null pointer is undefined
behaviour (lines 80-86). -/
def writePointerItems (wr : OStream → T → OStream) (separator : Char) :
    OStream → List (Option T) → Res OStream
  | os, [] => .ok os
  | _, none :: _ => .ub .nullDeref
  | os, some x :: t =>
    let os := wr os x
    match t with
    | [] => .ok os
    | _ :: _ => writePointerItems wr separator (os.putChar separator) t

/-- stlio.hpp:74-89 `write_pointer_sequence`. -/
def writePointerSequence (wr : OStream → T → OStream) (os : OStream) (xs : List (Option T))
    (opening closing separator : Char) : Res OStream :=
  match writePointerItems wr separator (os.putChar opening) xs with
  | .ok os => .ok (os.putChar closing)
  | r => r

/-- stlio.hpp:98-104, the loop of `write_map_sequence`. The same loop is used by
`write_coefficient_map_sequence` (lines 131-138) with `index()` and `coefficient()`. -/
def writeMapItems (wk : OStream → K → OStream) (wr : OStream → T → OStream)
    (separator descriptor : Char) : OStream → List (K × T) → OStream
  | os, [] => os
  | os, x :: t =>
    let os := wr ((wk os x.1).putChar descriptor) x.2
    match t with
    | [] => os
    | _ :: _ => writeMapItems wk wr separator descriptor (os.putChar separator) t

/-- stlio.hpp:92-107 `write_map_sequence`. -/
def writeMapSequence (wk : OStream → K → OStream) (wr : OStream → T → OStream) (os : OStream)
    (xs : List (K × T)) (opening closing separator descriptor : Char) : OStream :=
  (writeMapItems wk wr separator descriptor (os.putChar opening) xs).putChar closing

/-- stlio.hpp:126-141 `write_coefficient_map_sequence`. -/
def writeCoefficientMapSequence (wk : OStream → K → OStream) (wr : OStream → T → OStream)
    (os : OStream) (xs : List (K × T)) (opening closing separator descriptor : Char) : OStream :=
  (writeMapItems wk wr separator descriptor (os.putChar opening) xs).putChar closing

/-- stlio.hpp:115-121, the loop of `write_map_pointer_sequence`. -/
def writeMapPointerItems (wk : OStream → K → OStream) (wr : OStream → T → OStream)
    (separator descriptor : Char) : OStream → List (K × Option T) → Res OStream
  | os, [] => .ok os
  | _, (_, none) :: _ => .ub .nullDeref
  | os, (k, some x) :: t =>
    let os := wr ((wk os k).putChar descriptor) x
    match t with
    | [] => .ok os
    | _ :: _ => writeMapPointerItems wk wr separator descriptor (os.putChar separator) t

/-- stlio.hpp:109-124 `write_map_pointer_sequence`. -/
def writeMapPointerSequence (wk : OStream → K → OStream) (wr : OStream → T → OStream) (os : OStream)
    (xs : List (K × Option T)) (opening closing separator descriptor : Char) : Res OStream :=
  match writeMapPointerItems wk wr separator descriptor (os.putChar opening) xs with
  | .ok os => .ok (os.putChar closing)
  | r => r

/-- container.hpp:51-59 (`Array`), 61-69 (`SharedArray`), 127-135 (`std::vector`), 238-246
(`std::set`): the loop, with the flag `first`. `first` text is `"["` or `"{"`, then `","`. -/
def printLoop (wr : OStream → T → OStream) (openText sepText : List Char) :
    Bool → OStream → List T → Bool × OStream
  | first, os, [] => (first, os)
  | first, os, x :: t =>
    printLoop wr openText sepText false (wr (os.put (if first then openText else sepText)) x) t

/-- container.hpp:51-59, 61-69, 127-135: `operator<<` of `Array`, `SharedArray` and `std::vector`. -/
def printVector (wr : OStream → T → OStream) (os : OStream) (xs : List T) : OStream :=
  let r := printLoop wr ['['] [','] true os xs
  let os := if r.1 then r.2.put ['['] else r.2
  os.put [']']

/-- container.hpp:238-246: `operator<<` of `std::set`. -/
def printSet (wr : OStream → T → OStream) (os : OStream) (xs : List T) : OStream :=
  let r := printLoop wr ['{'] [','] true os xs
  let os := if r.1 then r.2.put ['{'] else r.2
  os.put ['}']

/-- container.hpp:155-158: `operator<<` of `std::list`. -/
def printList (wr : OStream → T → OStream) (os : OStream) (xs : List T) : OStream :=
  writeSequence wr os xs '[' ']' ','

/-- container.hpp:292-300: `operator<<` of `std::map`. -/
def printMap (wk : OStream → K → OStream) (wr : OStream → T → OStream) (os : OStream)
    (xs : List (K × T)) : OStream :=
  let r := printLoop (fun os (x : K × T) => wr ((wk os x.1).put [':']) x.2)
    ['{', ' '] [',', ' '] true os xs
  let os := if r.1 then r.2.put ['{'] else r.2
  os.put [' ', '}']

/-- stlio.hpp:211-216: `operator<<` of `std::pair`. -/
def printPair (wk : OStream → K → OStream) (wr : OStream → T → OStream) (os : OStream)
    (p : K × T) : OStream :=
  ((wr ((wk (os.putChar '(') p.1).putChar ',') p.2)).putChar ')'

/-- stlio.hpp:193-199 `write_tuple<N>`: a tuple is the list of the functions that write its
components; `N` counts down and is at least 1. `std::get<N-1>` beyond the tuple does not compile;
it is `none` here. -/
def writeTuple (tup : List (OStream → OStream)) : Nat → OStream → Option OStream
  | 0, _ => none
  | 1, os => (tup[0]?).map (· os)
  | n + 2, os =>
    match writeTuple tup (n + 1) os with
    | none => none
    | some os => (tup[n + 1]?).map (· (os.putChar ','))

/-- stlio.hpp:218-223: `operator<<` of `std::tuple`. (`tuple<>` does not compile: `N-1` underflows.) -/
def printTuple (tup : List (OStream → OStream)) (os : OStream) : Option OStream :=
  (writeTuple tup tup.length (os.put ['('])).map (·.put [')'])

/-- stlio.hpp:169-182, the loop of `read_sequence`. `c` is the last delimiter, `v` the items so far.
The first argument bounds the number of iterations; `none` means that it was not enough. -/
def readLoop (rd : IStream → T × IStream) (closing separator : Char) :
    Nat → Char → List T → IStream → Option (Res (List T × IStream))
  | 0, _, _, _ => none
  | fuel + 1, c, v, is =>
    if c ≠ closing then
      if is.eof then some (.exn .iosFailure)
      else if c ≠ separator then some (.exn .iosFailure)
      else
        let r := rd is
        if r.2.failed then some (.exn .iosFailure)
        else
          let r' := r.2.readChar (some c)
          match r'.1 with
          | none => some (.ub .indeterminate)
          | some c' => readLoop rd closing separator fuel c' (v ++ [r.1]) r'.2
    else some (.ok (v, is))

/-- stlio.hpp:144-190 `read_sequence` into the container with previous contents `v`. `c` is
declared without initialiser at line 152. -/
def readSequence (fuel : Nat) (rd : IStream → T × IStream) (is : IStream) (v : List T)
    (opening closing separator : Char) : Option (Res (List T × IStream)) :=
  let v := v.drop v.length  -- line 154, `v.clear()`
  let r := is.readChar none
  match r.1 with
  | none => some (.ub .indeterminate)
  | some c =>
    if c ≠ opening then some (.exn .iosFailure)
    else
      let r := r.2.readChar (some c)
      match r.1 with
      | none => some (.ub .indeterminate)
      | some c =>
        if c ≠ closing then readLoop rd closing separator fuel separator v (r.2.putback c)
        else readLoop rd closing separator fuel c v r.2

/-- stlio.hpp:278-283: `operator>>` of `std::vector`. -/
def readVector (fuel : Nat) (rd : IStream → T × IStream) (is : IStream)
    (v : List T) : Option (Res (List T × IStream)) := readSequence fuel rd is v '[' ']' ','

/-- `os << s` for `std::string` and `String` (string.hpp:42-47, a class derived from `std::string`). -/
def putString (os : OStream) (s : List Char) : OStream := os.put s

/-- string.hpp:51-52 `to_string`. -/
def toString (wr : OStream → T → OStream) (t : T) : List Char := (wr OStream.fresh t).out

/-- string.hpp:53-54 `to_str`. -/
def toStr (wr : OStream → T → OStream) (t : T) : List Char := toString wr t

end Helper.Seq
