import Verif.Seq.Model
import Verif.BinWord.Model
/-!
# Writing to streams whose buffers stop taking characters, and elements that throw

The writers of stlio.hpp, container.hpp and binary_word.hpp never look at the state of the stream: what they do is a list of output operations. They are
given here as such lists, which can be run on the streams of `Stream/Model.lean` (where they are the writers of `Seq/Model.lean`, see
`Seq/SinkProps.lean`) and on the streams of this file, which have exception masks and a buffer that takes a certain number of characters and then none.
-/
namespace Helper.Seq.Sink

variable {T : Type u} {K : Type v}

/-- What an `operator<<` does to its stream. -/
inductive Op where
  /-- a formatted output operation with this text -/
  | put (text : List Char)
  /-- `os << b` for a `bool`: the text depends on `std::boolalpha` -/
  | bool (b : Bool)
  /-- `os << std::boolalpha` or `os << std::noboolalpha` -/
  | alpha (b : Bool)
  /-- an exception of the `operator<<` of an element -/
  | raise
deriving DecidableEq, Repr

/-- The text of a `bool`. -/
def boolText (alpha b : Bool) : List Char :=
  if alpha then (if b then ['t', 'r', 'u', 'e'] else ['f', 'a', 'l', 's', 'e']) else (if b then ['1'] else ['0'])

/-! ## The writers -/

/-- stlio.hpp:62-68, the loop of `write_sequence`; `f x` is what `os << x` does. -/
def itemsOps (f : T → List Op) (separator : Char) : List T → List Op
  | [] => []
  | x :: t =>
    f x ++ match t with
    | [] => []
    | _ :: _ => .put [separator] :: itemsOps f separator t

/-- stlio.hpp:56-71 `write_sequence`; container.hpp:155-158 (`std::list`). -/
def sequenceOps (f : T → List Op) (xs : List T) (opening closing separator : Char) : List Op :=
  .put [opening] :: itemsOps f separator xs ++ [.put [closing]]

/-- stlio.hpp:92-107 `write_map_sequence`: a sequence of keys, descriptors and values. -/
def mapSequenceOps (g : K → List Op) (f : T → List Op) (xs : List (K × T)) (opening closing separator descriptor : Char) : List Op :=
  sequenceOps (fun x => g x.1 ++ .put [descriptor] :: f x.2) xs opening closing separator

/-- container.hpp:51-59, 61-69, 127-135, 238-246, 292-300: the loop with the flag `first`. -/
def loopOps (f : T → List Op) (openText sepText : List Char) : Bool → List T → List Op
  | _, [] => []
  | first, x :: t => .put (if first then openText else sepText) :: f x ++ loopOps f openText sepText false t

/-- container.hpp:51-59, 61-69, 127-135: `operator<<` of `Array`, `SharedArray` and `std::vector`. -/
def vectorOps (f : T → List Op) (xs : List T) : List Op :=
  loopOps f ['['] [','] true xs ++ (if xs.isEmpty then [.put ['[']] else []) ++ [.put [']']]

/-- container.hpp:238-246: `operator<<` of `std::set`. -/
def setOps (f : T → List Op) (xs : List T) : List Op :=
  loopOps f ['{'] [','] true xs ++ (if xs.isEmpty then [.put ['{']] else []) ++ [.put ['}']]

/-- container.hpp:292-300: `operator<<` of `std::map`. -/
def mapOps (g : K → List Op) (f : T → List Op) (xs : List (K × T)) : List Op :=
  loopOps (fun x => g x.1 ++ .put [':'] :: f x.2) ['{', ' '] [',', ' '] true xs ++ (if xs.isEmpty then [.put ['{']] else []) ++ [.put [' ', '}']]

/-- stlio.hpp:211-216: `operator<<` of `std::pair`. -/
def pairOps (g : K → List Op) (f : T → List Op) (p : K × T) : List Op :=
  .put ['('] :: g p.1 ++ .put [','] :: f p.2 ++ [.put [')']]

/-- binary_word.hpp:228-238: `operator<<` of `BinaryWord`. -/
def wordOps (w : BinWord.Word) : List Op :=
  if w.isEmpty then [.put ['e']] else .alpha false :: w.map .bool ++ [.alpha true]

/-! ## Streams that never fail -/

/-- An operation on a stream of `Stream/Model.lean`. (There, elements do not throw.) -/
def runO1 (os : OStream) : Op → OStream
  | .put t => os.put t
  | .bool b => os.putBool b
  | .alpha b => { os with boolalpha := b }
  | .raise => os

/-- The operations one after the other. -/
def runO (os : OStream) (l : List Op) : OStream := l.foldl runO1 os

/-! ## Streams that fail -/

/-- Outcomes: the operation returns, or throws `std::ios_base::failure`, or an exception of an element. -/
inductive Outcome where
  | ok
  | failure
  | raised
deriving DecidableEq, Repr

/-- An output stream: the characters taken so far, the number of characters that the buffer will still take, the flags, the state (`badbit`,
`failbit`) and the exception mask. (A buffer that throws is one that takes nothing, except that its exception is passed on instead of
`std::ios_base::failure`.) -/
structure Stream where
  out : List Char
  room : Nat
  boolalpha : Bool
  width : Nat
  fill : Char
  bad : Bool
  fail : Bool
  exBad : Bool
  exFail : Bool
deriving DecidableEq, Repr

/-- `good()` (`eofbit` is not set by output). -/
def Stream.good (s : Stream) : Bool := !s.bad && !s.fail

/-- Whether `setstate` throws: the state and the mask have a bit in common. -/
def Stream.throws (s : Stream) : Bool := s.bad && s.exBad || s.fail && s.exFail

/-- What the sentry of an output operation does to a stream that is not good: it may call `setstate(failbit)` [ostream.sentry]. Whether it does
depends on the implementation and on the state; libstdc++ does if `badbit` is set. -/
abbrev Policy := Bool → Bool → Bool

/-- A formatted output operation with this text [ostream.formatted.reqmts]: if the stream is not good nothing is written; if the buffer does not take
all of the padded text, `badbit` is set. The width is reset, unless an exception is thrown. -/
def put (p : Policy) (s : Stream) (text : List Char) : Outcome × Stream :=
  if s.good then
    let padded := List.replicate (s.width - text.length) s.fill ++ text
    if padded.length ≤ s.room then (.ok, { s with out := s.out ++ padded, room := s.room - padded.length, width := 0 })
    else
      let s := { s with out := s.out ++ padded.take s.room, room := 0, bad := true }
      if s.throws then (.failure, s) else (.ok, { s with width := 0 })
  else if p s.bad s.fail then
    let s := { s with fail := true }
    if s.throws then (.failure, s) else (.ok, s)
  else (.ok, s)

/-- One operation. Manipulators act in any state. -/
def run1 (p : Policy) (s : Stream) : Op → Outcome × Stream
  | .put t => put p s t
  | .bool b => put p s (boolText s.boolalpha b)
  | .alpha b => (.ok, { s with boolalpha := b })
  | .raise => (.raised, s)

/-- The operations one after the other, until one of them throws. -/
def run (p : Policy) : Stream → List Op → Outcome × Stream
  | s, [] => (.ok, s)
  | s, o :: l =>
    match run1 p s o with
    | (.ok, s) => run p s l
    | r => r

end Helper.Seq.Sink
