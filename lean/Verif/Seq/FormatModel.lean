import Verif.Seq.Outcome
/-!
# Model for property C133: integers in the bases and formats of the streams

`write_sequence`, `operator<<` and `read_sequence` (stlio.hpp:56-71, 144-190, container.hpp:127-135) neither set nor reset the flags of the streams; they
are used as modelled before. What depends on the flags are the readers and writers of the items, which follow `std::num_put`
and `std::num_get` ([facet.num.put.virtuals], [facet.num.get.virtuals]) for the "C" locale.
-/
namespace Helper.Seq.Format
open IStream OStream

/-- The flags `basefield`: none of `oct`, `dec`, `hex`, or one of them. (Two or more at once are not modelled.) -/
inductive Base where
  | unset | oct | dec | hex
deriving DecidableEq, Repr

/-- The base in which numbers are written. -/
def Base.radix : Base → Nat
  | .unset => 10
  | .oct => 8
  | .dec => 10
  | .hex => 16

/-- The flags that concern integers. -/
structure Flags where
  base : Base
  showbase : Bool
  uppercase : Bool
  showpos : Bool
deriving DecidableEq, Repr

/-- An integral type other than `bool` and the character types, of `w` bits. -/
structure IntType where
  w : Nat
  signed : Bool

def IntType.lo (t : IntType) : Int := if t.signed then - 2 ^ (t.w - 1) else 0

def IntType.hi (t : IntType) : Int := if t.signed then 2 ^ (t.w - 1) - 1 else 2 ^ t.w - 1

/-- The character for a digit. -/
def mark (up : Bool) (k : Nat) : Char :=
  if k < 10 then Char.ofNat (48 + k) else Char.ofNat ((if up then 55 else 87) + k)

/-- Digits in base `b`, most significant first. -/
def digs (b n : Nat) : List Nat :=
  if n < b ∨ b < 2 then [n] else digs b (n / b) ++ [n % b]
termination_by n
decreasing_by exact Nat.div_lt_self (by omega) (by omega)

def marks (f : Flags) (n : Nat) : List Char := (digs f.base.radix n).map (mark f.uppercase)

/-- What `std::num_put` writes for an integer: in octal and hexadecimal the value modulo `2 ^ w` (as by `%o`, `%x`, `%X`), in decimal the sign and the
absolute value. -/
def intTextF (t : IntType) (f : Flags) (i : Int) : List Char :=
  match f.base with
  | .oct => (if f.showbase && i != 0 then ['0'] else []) ++ marks f (i % 2 ^ t.w).toNat
  | .hex => (if f.showbase && i != 0 then ['0', if f.uppercase then 'X' else 'x'] else []) ++ marks f (i % 2 ^ t.w).toNat
  | _ => (if i < 0 then ['-'] else if f.showpos && t.signed then ['+'] else []) ++ marks f i.natAbs

/-- `os << i`. -/
def putIntF (t : IntType) (f : Flags) (os : OStream) (i : Int) : OStream := os.put (intTextF t f i)

/-- The digit that a character stands for. -/
def markVal (c : Char) : Option Nat :=
  let n := c.toNat
  if 48 ≤ n ∧ n ≤ 57 then some (n - 48)
  else if 65 ≤ n ∧ n ≤ 70 then some (n - 55)
  else if 97 ≤ n ∧ n ≤ 102 then some (n - 87)
  else none

/-- The character is a digit in base `r`. -/
def isMark (r : Nat) (c : Char) : Bool :=
  match markVal c with
  | some k => decide (k < r)
  | none => false

/-- Value of a string of digits in base `r`, continuing from `acc`. -/
def valueIn (r : Nat) (acc : Nat) : List Char → Nat
  | [] => acc
  | c :: t => valueIn r (acc * r + (markVal c).getD 0) t

/-- Is there the prefix of a hexadecimal number? -/
def hexPrefix : List Char → Bool
  | '0' :: c :: _ => c == 'x' || c == 'X'
  | _ => false

def zeroPrefix : List Char → Bool
  | '0' :: _ => true
  | _ => false

/-- The length of the prefix of a number and its base, as `std::num_get` finds them (with `%i`, `%o`, `%d`, `%X`). -/
def scanBase (b : Base) (l : List Char) : Nat × Nat :=
  match b with
  | .oct => (0, 8)
  | .dec => (0, 10)
  | .hex => (if hexPrefix l then 2 else 0, 16)
  | .unset => if hexPrefix l then (2, 16) else if zeroPrefix l then (0, 8) else (0, 10)

/-- The value of a number of absolute value `m`, if it can be represented; negative numbers of an unsigned type count modulo `2 ^ w`. -/
def represent (t : IntType) (negative : Bool) (m : Nat) : Option Int :=
  if t.signed then
    let v : Int := if negative then - (m : Int) else m
    if t.lo ≤ v ∧ v ≤ t.hi then some v else none
  else if (m : Int) ≤ t.hi then some (if negative then (- (m : Int)) % 2 ^ t.w else m) else none

/-- `std::num_get` for integers (as in libstdc++): an optional sign, the prefix, and the longest run of digits of the base are extracted. Without digits, or
with a value that cannot be represented, failbit is set (and the nearest value is stored, or 0). -/
def extractIntF (t : IntType) (b : Base) (s : IStream) : Int × IStream :=
  let n := signLength s.rest
  let sign := s.rest.take n
  let body := s.rest.drop n
  let k := (scanBase b body).1
  let r := (scanBase b body).2
  let run := (body.drop k).takeWhile (isMark r)
  let rest' := (body.drop k).dropWhile (isMark r)
  let s' := { s with before := (sign ++ body.take k ++ run).reverse ++ s.before, rest := rest', eof := s.eof || rest'.isEmpty }
  if run.isEmpty then (0, { s' with fail := true })
  else match represent t (decide (sign = ['-'])) (valueIn r 0 run) with
    | some v => (v, s')
    | none => (if t.signed && decide (sign = ['-']) then t.lo else t.hi, { s' with fail := true })

/-- `is >> x`. -/
def readIntF (t : IntType) (b : Base) (s : IStream) (x : Int) : Int × IStream :=
  let r := s.sentry false
  if r.1 then extractIntF t b r.2 else (x, r.2)

def readLeafF (t : IntType) (b : Base) (s : IStream) : Option (Res (Int × IStream)) := some (.ok (readIntF t b s 0))

end Helper.Seq.Format
