import Verif.Seq.Nested
/-!
# C134, model: streams with an exception mask

`std::basic_ios::exceptions(mask)`: an operation that leaves one of the bits of the mask set throws `std::ios_base::failure`
([iostate.flags], [istream.formatted.reqmts]). The readers of lists and of words again, with the container and the stream they
leave.
-/
namespace Helper.Seq.Mask
open IStream

variable {T L : Type}

/-- The bits of the mask. -/
structure Mask where
  eof : Bool
  fail : Bool
  bad : Bool
deriving DecidableEq, Repr

/-- The mask of a new stream. -/
def Mask.none : Mask := ⟨false, false, false⟩

/-- One of the bits of the mask is set. -/
def Mask.hits (m : Mask) (s : IStream) : Bool := m.eof && s.eof || m.fail && s.fail || m.bad && s.bad

/-- An operation on a stream with a mask: `r` is what the operation gives on a stream without a mask. Every operation used here sets
its bits by `setstate` or `clear`, which throw if a bit of the mask is set then; if the state is good before the operation or is not good
after it, that is the same as testing the state after it. -/
def guarded {A : Type} (m : Mask) (r : A × IStream) : Res A × IStream :=
  (if m.hits r.2 then .exn .iosFailure else .ok r.1, r.2)

/-- Readers of items with the stream they leave. -/
abbrev Rd (T : Type) := IStream → Option (Res T × IStream)

/-- Reading an item with one operation of the stream (numbers, characters, `bool`). -/
def leafM (m : Mask) (f : IStream → T × IStream) : Rd T := fun s => some (guarded m (f s))

/-- stlio.hpp:169-182, the loop of `read_sequence`. -/
def readLoopM (m : Mask) (rd : Rd T) (closing separator : Char) : Nat → Char → List T → IStream → Option (Res Unit × List T × IStream)
  | 0, _, _, _ => .none
  | fuel + 1, c, v, is =>
    if c ≠ closing then
      if is.eof then some (.exn .iosFailure, v, is)
      else if c ≠ separator then some (.exn .iosFailure, v, is)
      else
        match rd is with
        | .none => .none
        | some (.ok x, is') =>
          if is'.failed then some (.exn .iosFailure, v, is')
          else
            match guarded m (is'.readChar (some c)) with
            | (.ok (some c'), is'') => readLoopM m rd closing separator fuel c' (v ++ [x]) is''
            | (.ok .none, is'') => some (.ub .indeterminate, v ++ [x], is'')
            | (.exn e, is'') => some (.exn e, v ++ [x], is'')
            | (.ub u, is'') => some (.ub u, v ++ [x], is'')
            | (.abort, is'') => some (.abort, v ++ [x], is'')
        | some (.exn e, is') => some (.exn e, v, is')
        | some (.ub u, is') => some (.ub u, v, is')
        | some (.abort, is') => some (.abort, v, is')
    else some (.ok (), v, is)

/-- stlio.hpp:160-182, `read_sequence` after the opening character. -/
def readRestM (m : Mask) (fuel : Nat) (rd : Rd T) (c : Char) (is : IStream) (v : List T) (closing separator : Char) :
    Option (Res Unit × List T × IStream) :=
  match guarded m (is.readChar (some c)) with
  | (.ok (some c), is) =>
    if c ≠ closing then
      match guarded m ((), is.putback c) with
      | (.ok _, is) => readLoopM m rd closing separator fuel separator v is
      | (.exn e, is) => some (.exn e, v, is)
      | (.ub u, is) => some (.ub u, v, is)
      | (.abort, is) => some (.abort, v, is)
    else readLoopM m rd closing separator fuel c v is
  | (.ok .none, is) => some (.ub .indeterminate, v, is)
  | (.exn e, is) => some (.exn e, v, is)
  | (.ub u, is) => some (.ub u, v, is)
  | (.abort, is) => some (.abort, v, is)

/-- stlio.hpp:144-190 `read_sequence` into a container with contents `v`. -/
def readSequenceM (m : Mask) (fuel : Nat) (rd : Rd T) (is : IStream) (v : List T) (opening closing separator : Char) :
    Option (Res Unit × List T × IStream) :=
  let v := v.drop v.length  -- line 154, `v.clear()`
  match guarded m (is.readChar .none) with
  | (.ok (some c), is) =>
    if c ≠ opening then some (.exn .iosFailure, v, is)
    else readRestM m fuel rd c is v closing separator
  | (.ok .none, is) => some (.ub .indeterminate, v, is)
  | (.exn e, is) => some (.exn e, v, is)
  | (.ub u, is) => some (.ub u, v, is)
  | (.abort, is) => some (.abort, v, is)

/-- A list as an item: what was read of it is not seen after an exception. -/
def asItem : Option (Res Unit × List T × IStream) → Option (Res (List T) × IStream)
  | .none => .none
  | some (.ok _, v, s) => some (.ok v, s)
  | some (.exn e, _, s) => some (.exn e, s)
  | some (.ub u, _, s) => some (.ub u, s)
  | some (.abort, _, s) => some (.abort, s)

/-- stlio.hpp:278-283 `operator>>` of vectors nested `d` deep; the vector that an item is read into is cleared first, so it is left out. -/
def readNestM (m : Mask) (fuel : Nat) (rd : Rd L) : (d : Nat) → Rd (Nest L d)
  | 0, is => rd is
  | d + 1, is => asItem (readSequenceM m fuel (readNestM m fuel rd d) is [] '[' ']' ',')

/-- binary_word.hpp:203-207: the loop reading zeros and ones, and putting the last symbol back. -/
def readBitsM (m : Mask) : Nat → Char → BinWord.Word → IStream → Option (Res Unit × BinWord.Word × IStream)
  | 0, _, _, _ => .none
  | fuel + 1, symbol, w, is =>
    if !is.failed && (symbol == '0' || symbol == '1') then
      match guarded m (is.get (some symbol)) with
      | (.ok (some symbol'), is) => readBitsM m fuel symbol' (w ++ [if symbol == '0' then false else true]) is
      | (.ok .none, is) => some (.ub .indeterminate, w ++ [if symbol == '0' then false else true], is)
      | (.exn e, is) => some (.exn e, w ++ [if symbol == '0' then false else true], is)
      | (.ub u, is) => some (.ub u, w ++ [if symbol == '0' then false else true], is)
      | (.abort, is) => some (.abort, w ++ [if symbol == '0' then false else true], is)
    else
      match guarded m ((), is.putback symbol) with
      | (r, is) => some (r, w, is)

/-- binary_word.hpp:188-210 `operator>>` of words. -/
def readWordM (m : Mask) (fuel : Nat) (is : IStream) (w : BinWord.Word) : Option (Res Unit × BinWord.Word × IStream) :=
  let w := w.drop w.length -- line 191, `clear()`
  match guarded m (is.readChar .none) with
  | (.ok (some symbol), is) =>
    if symbol = '[' then
      match guarded m ((), is.putback symbol) with
      | (.ok _, is) => readSequenceM m fuel (leafM m fun s => s.readBool false) is w '[' ']' ','
      | (.exn e, is) => some (.exn e, w, is)
      | (.ub u, is) => some (.ub u, w, is)
      | (.abort, is) => some (.abort, w, is)
    else readBitsM m fuel symbol w is
  | (.ok .none, is) => some (.ub .indeterminate, w, is)
  | (.exn e, is) => some (.exn e, w, is)
  | (.ub u, is) => some (.ub u, w, is)
  | (.abort, is) => some (.abort, w, is)

/-- A word as an item of a list. -/
def wordM (m : Mask) (fuel : Nat) : Rd BinWord.Word := fun s => asItem (readWordM m fuel s [])

end Helper.Seq.Mask
