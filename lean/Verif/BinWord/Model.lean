import Verif.Seq.Model
/-!
# Model of `include/binary_word.hpp`

A `BinaryWord` is a `std::vector<bool>`: a list of booleans. Every indexed read is bounds-checked
(`.ub .outOfBounds`). Loops carry a bound on the number of iterations (`fuel`); `none` means that it
was not enough. The names `StringType` and `StringStream` used by the header are not defined in the
repository; they are taken to be `std::string` and `std::stringstream`.
-/
namespace Helper.BinWord

abbrev Word := List Bool

/-- `w[i]`. -/
def get (w : Word) (i : Nat) : Res Bool :=
  match w[i]? with
  | some b => .ok b
  | none => .ub .outOfBounds

/-- binary_word.hpp:96 `_bits_per_byte`, the digits of `unsigned char`. -/
def bitsPerByte : Nat := 8

/-- binary_word.hpp:110 `bytes`, with the wrap-around of `size_t`. -/
def bytes (w : Word) : Nat := ((w.length + bitsPerByte - 1) % 2 ^ 64) / bitsPerByte

/-- binary_word.hpp:113 `set_back`; `size()-1` wraps around for the empty word. -/
def setBack (w : Word) (x : Bool) : Res Word :=
  let i := (w.length + (2 ^ 64 - 1)) % 2 ^ 64
  if i < w.length then .ok (w.set i x) else .ub .outOfBounds

/-- Conversion of a `size_t` to `int` (32 bit, modulo). -/
def toInt32 (n : Nat) : Int :=
  let m : Int := (n % 2 ^ 32 : Nat)
  if m < 2 ^ 31 then m else m - 2 ^ 32

/-- binary_word.hpp:133-135, the loop of `erase_prefix`. -/
def eraseLoop (total k : Int) : Nat → Int → Word → Option (Res Word)
  | 0, _, _ => none
  | fuel + 1, i, w =>
    if i < total ∧ i < k then
      match w with
      | [] => some (.ub .outOfBounds)
      | _ :: t => eraseLoop total k fuel (i + 1) t
    else some (.ok w)

/-- binary_word.hpp:130-136 `erase_prefix`. -/
def erasePrefix (fuel : Nat) (w : Word) (k : Int) : Option (Res Word) :=
  eraseLoop (toInt32 w.length) k fuel 0 w

/-- binary_word.hpp:139-143, the loop of `operator<`, with `n` iterations to go from index `i`. -/
def ltLoop (w v : Word) : Nat → Nat → Res Bool
  | 0, _ => .ok (decide (w.length < v.length))
  | n + 1, i => do
    let a ← get w i
    let b ← get v i
    if a ≠ b then return (!a && b) else ltLoop w v n (i + 1)

/-- binary_word.hpp:138-145 `operator<`. -/
def lt (w v : Word) : Res Bool := ltLoop w v (min w.length v.length) 0

/-- binary_word.hpp:151-155, the loop of `is_prefix`. -/
def prefixLoop (w v : Word) : Nat → Nat → Res Bool
  | 0, _ => .ok true
  | n + 1, i => do
    let a ← get w i
    let b ← get v i
    if a ≠ b then return false else prefixLoop w v n (i + 1)

/-- binary_word.hpp:147-157 `is_prefix`. -/
def isPrefix (w v : Word) : Res Bool :=
  if v.length < w.length then .ok false else prefixLoop w v w.length 0

/-- binary_word.hpp:164-167: the inner loop of `is_subword`, with `n` iterations to go from `j`;
returns the final `j`. -/
def matchLoop (w v : Word) (i : Nat) : Nat → Nat → Res Nat
  | 0, j => .ok j
  | n + 1, j => do
    let a ← get w j
    let b ← get v (i + j)
    if a = b then matchLoop w v i n (j + 1) else return j

/-- binary_word.hpp:163-171: the outer loop of `is_subword`. -/
def subwordLoop (w v : Word) : Nat → Nat → Res Bool
  | 0, _ => .ok false
  | n + 1, i => do
    let j ← matchLoop w v i w.length 0
    if j = w.length then return true else subwordLoop w v n (i + 1)

/-- binary_word.hpp:159-173 `is_subword`. -/
def isSubword (w v : Word) : Res Bool :=
  if v.length < w.length then .ok false else subwordLoop w v (v.length - w.length + 1) 0

/-- The words of a program, by the name of the variable. -/
abbrev Store := Nat → Word

/-- Assignment to a variable. -/
def Store.set (st : Store) (x : Nat) (w : Word) : Store := fun y => if y = x then w else st y

/-- binary_word.hpp:175-177 `append(bool)`. -/
def appendBit (st : Store) (x : Nat) (b : Bool) : Store := st.set x (st x ++ [b])

/-- binary_word.hpp:180-182: the loop of `append(word)`. The parameter is a reference: `size()` and
the element are read from the variable `y` again in every iteration, which may be `x` itself. -/
def appendLoop (x y : Nat) : Nat → Nat → Store → Option (Res Store)
  | 0, _, _ => none
  | fuel + 1, i, st =>
    if i < (st y).length then
      match get (st y) i with
      | .ok b => appendLoop x y fuel (i + 1) (st.set x (st x ++ [b]))
      | .ub k => some (.ub k)
      | .exn e => some (.exn e)
      | .abort => some .abort
    else some (.ok st)

/-- binary_word.hpp:179-183 `append(word)`: `x.append(y)`. -/
def appendWord (fuel : Nat) (st : Store) (x y : Nat) : Option (Res Store) := appendLoop x y fuel 0 st

/-- binary_word.hpp:203-206: the loop reading zeros and ones. -/
def readBits : Nat → Char → Word → IStream → Option (Res (Char × Word × IStream))
  | 0, _, _, _ => none
  | fuel + 1, symbol, w, is =>
    if !is.failed && (symbol == '0' || symbol == '1') then
      let r := is.get (some symbol)
      match r.1 with
      | none => some (.ub .indeterminate)
      | some symbol' => readBits fuel symbol' (w ++ [if symbol == '0' then false else true]) r.2
    else some (.ok (symbol, w, is))

/-- binary_word.hpp:188-210 `operator>>`. `symbol` is declared without initialiser at line 193. The
variable `x` of `read_sequence` is also uninitialised, but it is never used unless it has been read
successfully; its value is `false` here. -/
def readWord (fuel : Nat) (is : IStream) (w : Word) : Option (Res (Word × IStream)) :=
  let w := w.drop w.length -- line 191, `clear()`
  let r := is.readChar none
  match r.1 with
  | none => some (.ub .indeterminate)
  | some symbol =>
    if symbol = '[' then
      Seq.readVector fuel (fun s => s.readBool false) (r.2.putback symbol) w
    else
      match readBits fuel symbol w r.2 with
      | none => none
      | some (.ok (symbol, w, is)) => some (.ok (w, is.putback symbol))
      | some (.ub k) => some (.ub k)
      | some (.exn e) => some (.exn e)
      | some .abort => some .abort

/-- binary_word.hpp:215-220 `make_binary_word`. -/
def makeBinaryWord (fuel : Nat) (s : List Char) : Option (Res Word) :=
  match readWord fuel (IStream.ofList s) [] with
  | none => none
  | some (.ok (w, _)) => some (.ok w)
  | some (.ub k) => some (.ub k)
  | some (.exn e) => some (.exn e)
  | some .abort => some .abort

/-- binary_word.hpp:222-223, the constructor from a string. -/
def ofString (fuel : Nat) (s : List Char) : Option (Res Word) := makeBinaryWord fuel s

/-- binary_word.hpp:233-235: the loop of `operator<<`. -/
def writeBits : OStream → Word → OStream
  | os, [] => os
  | os, b :: t => writeBits (os.putBool b) t

/-- binary_word.hpp:228-238 `operator<<`. -/
def writeWord (os : OStream) (w : Word) : OStream :=
  if w.isEmpty then os.putChar 'e'
  else { writeBits { os with boolalpha := false } w with boolalpha := true }

end Helper.BinWord
