import Verif.Basic
/-!
# Streams (trusted model of `std::istream` and `std::ostream`)

Only the operations used by the library are modelled, following [istream], [ostream],
[facet.num.get], [facet.num.put] for the "C" locale and streams without an exception mask
(the default): an operation that fails sets a state bit, it does not throw.
-/
namespace Helper

/-- `std::isspace` in the "C" locale. -/
def isSpace (c : Char) : Bool :=
  c == ' ' || c == '\t' || c == '\n' || c == '\x0b' || c == '\x0c' || c == '\r'

/-- An input stream over a string: characters already extracted (most recent first), characters to
come, the three state bits and two format flags. -/
structure IStream where
  before : List Char
  rest : List Char
  eof : Bool
  fail : Bool
  bad : Bool
  boolalpha : Bool
  skipws : Bool
deriving DecidableEq, Repr

namespace IStream

/-- A freshly constructed `std::stringstream(text)`. -/
def ofList (text : List Char) : IStream := ⟨[], text, false, false, false, false, true⟩

/-- `good()`: no state bit is set. -/
def good (s : IStream) : Bool := !s.eof && !s.fail && !s.bad

/-- `fail()`: failbit or badbit; `operator bool` is its negation. -/
def failed (s : IStream) : Bool := s.fail || s.bad

/-- Extracts blanks. -/
def skipBlanks (s : IStream) : IStream :=
  { s with before := (s.rest.takeWhile isSpace).reverse ++ s.before, rest := s.rest.dropWhile isSpace }

/-- The constructor of `std::istream::sentry`; the result says whether extraction may go on. -/
def sentry (s : IStream) (noskipws : Bool) : Bool × IStream :=
  if s.good then
    if s.skipws && !noskipws then
      let s' := s.skipBlanks
      if s'.rest.isEmpty then (false, { s' with eof := true, fail := true }) else (true, s')
    else (true, s)
  else (false, { s with fail := true })

/-- Extracts one character into the variable `c` (whose value is `none` while it is indeterminate);
at the end of the text sets eofbit and failbit and leaves the variable as it was. -/
def extract (s : IStream) (c : Option Char) : Option Char × IStream :=
  match s.rest with
  | [] => (c, { s with eof := true, fail := true })
  | x :: r => (some x, { s with before := x :: s.before, rest := r })

/-- `is >> c` for `char c`. -/
def readChar (s : IStream) (c : Option Char) : Option Char × IStream :=
  let r := s.sentry false
  if r.1 then r.2.extract c else (c, r.2)

/-- `is.get(c)`. -/
def get (s : IStream) (c : Option Char) : Option Char × IStream :=
  let r := s.sentry true
  if r.1 then r.2.extract c else (c, r.2)

/-- `is.putback(c)`: clears eofbit; sets badbit if the character cannot be put back. (A `stringbuf`
can also put back a character different from the one read; the library never does that, and the
model treats it as impossible.) -/
def putback (s : IStream) (c : Char) : IStream :=
  let r := { s with eof := false }.sentry true
  if r.1 then
    match r.2.before with
    | x :: b => if x == c then { r.2 with before := b, rest := c :: r.2.rest } else { r.2 with bad := true }
    | [] => { r.2 with bad := true }
  else r.2

/-- A decimal digit. -/
def isDigit (c : Char) : Bool := decide (48 ≤ c.toNat) && decide (c.toNat ≤ 57)

/-- Value of a string of decimal digits, continuing from `acc`. -/
def digitsValue (acc : Nat) : List Char → Nat
  | [] => acc
  | c :: t => digitsValue (acc * 10 + (c.toNat - 48)) t

/-- Is the next character a sign? -/
def signLength : List Char → Nat
  | '+' :: _ => 1
  | '-' :: _ => 1
  | _ => 0

/-- `std::num_get` for a signed integral type with values `lo … hi`, decimal base: an optional sign
and the longest run of digits are extracted; without digits, or with a value out of range, failbit is
set; eofbit is set if the end of the text has been reached. Returns the value stored. -/
def extractInt (lo hi : Int) (s : IStream) : Int × IStream :=
  let n := signLength s.rest
  let sign := s.rest.take n
  let ds := (s.rest.drop n).takeWhile isDigit
  let rest' := (s.rest.drop n).dropWhile isDigit
  let v : Int := if sign = ['-'] then - (digitsValue 0 ds : Int) else (digitsValue 0 ds : Int)
  let s' := { s with before := (sign ++ ds).reverse ++ s.before, rest := rest',
                     eof := s.eof || rest'.isEmpty }
  if ds.isEmpty then (0, { s' with fail := true })
  else if v < lo then (lo, { s' with fail := true })
  else if hi < v then (hi, { s' with fail := true })
  else (v, s')

/-- `is >> x` for a signed integral type with values `lo … hi`. When the sentry fails the variable
keeps its value `x`. -/
def readInt (lo hi : Int) (s : IStream) (x : Int) : Int × IStream :=
  let r := s.sentry false
  if r.1 then extractInt lo hi r.2 else (x, r.2)

/-- Range of `long` (64 bit). -/
def longMin : Int := -9223372036854775808
def longMax : Int := 9223372036854775807

/-- Extracts the characters of `word` as long as they match; sets eofbit if the text ends too
early; returns whether the whole word was there. -/
def matchWord : List Char → IStream → Bool × IStream
  | [], s => (true, s)
  | w :: ws, s =>
    match s.rest with
    | [] => (false, { s with eof := true })
    | x :: r =>
      if x == w then matchWord ws { s with before := x :: s.before, rest := r } else (false, s)

/-- `std::num_get` for `bool`. Without boolalpha a `long` is parsed and must be 0 or 1; with
boolalpha one of the words `true`, `false` must come. -/
def extractBool (s : IStream) : Bool × IStream :=
  if s.boolalpha then
    match s.rest with
    | 't' :: _ =>
      let r := matchWord ['t', 'r', 'u', 'e'] s
      if r.1 then (true, r.2) else (false, { r.2 with fail := true })
    | 'f' :: _ =>
      let r := matchWord ['f', 'a', 'l', 's', 'e'] s
      if r.1 then (false, r.2) else (false, { r.2 with fail := true })
    | _ => (false, { s with fail := true, eof := s.eof || s.rest.isEmpty })
  else
    let r := extractInt longMin longMax s
    if r.2.fail then (decide (r.1 ≠ 0), r.2)
    else if r.1 = 0 then (false, r.2)
    else if r.1 = 1 then (true, r.2)
    else (true, { r.2 with fail := true })

/-- `is >> b` for `bool b`. -/
def readBool (s : IStream) (b : Bool) : Bool × IStream :=
  let r := s.sentry false
  if r.1 then extractBool r.2 else (b, r.2)

end IStream

/-- An output stream: text written so far, the format state that the library uses, and whether
output is refused (failbit or badbit). Output is right-adjusted (the default). -/
structure OStream where
  out : List Char
  boolalpha : Bool
  width : Nat
  fill : Char
  failed : Bool
deriving DecidableEq, Repr

namespace OStream

/-- A freshly constructed `std::stringstream`. -/
def fresh : OStream := ⟨[], false, 0, ' ', false⟩

/-- A formatted output operation that writes `text`: pads to the width, which it resets. -/
def put (os : OStream) (text : List Char) : OStream :=
  if os.failed then os
  else { os with out := os.out ++ List.replicate (os.width - text.length) os.fill ++ text, width := 0 }

/-- `os << c`. -/
def putChar (os : OStream) (c : Char) : OStream := os.put [c]

/-- Decimal digits of a natural number. -/
def digits (n : Nat) : List Char :=
  if n < 10 then [Char.ofNat (48 + n)] else digits (n / 10) ++ [Char.ofNat (48 + n % 10)]
termination_by n
decreasing_by omega

/-- Text of an integer. -/
def intText (i : Int) : List Char := if i < 0 then '-' :: digits i.natAbs else digits i.natAbs

/-- `os << i` for a signed integral type. -/
def putInt (os : OStream) (i : Int) : OStream := os.put (intText i)

/-- `os << b`. -/
def putBool (os : OStream) (b : Bool) : OStream :=
  os.put (if os.boolalpha then (if b then ['t', 'r', 'u', 'e'] else ['f', 'a', 'l', 's', 'e'])
    else (if b then ['1'] else ['0']))

end OStream
end Helper
