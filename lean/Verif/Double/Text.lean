import Verif.Double.Model
import Verif.Stream.Model
/-!
# Writing and reading `double` (trusted model of `std::num_put` and `std::num_get`)

The library writes and reads the elements of a `std::vector<double>` with `os << x` (container.hpp:127-135) and `is >> x` (stlio.hpp:144-190).
Both are modelled for the default floating-point format (`%g`), for finite values, and for locales without grouping of digits, where `dp` is the
decimal point (`.` in the "C" locale, `,` in many others); minus zero is not told from zero. As in
`Double.Model` the bounds of the exponent are not modelled. `P` is `os.precision()`, 6 unless it is set.
-/
namespace Helper.Double

/-- Number of decimal digits less one; at most `fuel` divisions. -/
def log10Fuel : Nat → Nat → Nat
  | 0, _ => 0
  | fuel + 1, n => if n < 10 then 0 else log10Fuel fuel (n / 10) + 1

/-- The `e` with `10^e ≤ n < 10^(e+1)`, for `n > 0`. -/
def log10 (n : Nat) : Nat := log10Fuel n n

/-- The `e` with `10^e ≤ x < 10^(e+1)`, for `x > 0`. -/
def dexpo (x : Rat) : Int :=
  let e : Int := (log10 x.num.toNat : Int) - (log10 x.den : Int)
  if (10 : Rat) ^ e ≤ x then e else e - 1

/-- `x > 0` to `P` digits, as by `%e`: an integer `m` of `P` digits and the exponent `X` of the first one, so that the number is `m * 10^(X+1-P)`. The
exact value of `x` is rounded, to the even digit if it is halfway. -/
def decimal (P : Nat) (x : Rat) : Nat × Int :=
  let e := dexpo x
  let m := (nearestInt (x / (10 : Rat) ^ (e + 1 - (P : Int)))).toNat
  if m = 10 ^ P then (10 ^ (P - 1), e + 1) else (m, e)

/-- Without zeros at the end. -/
def trim (ds : List Char) : List Char := (ds.reverse.dropWhile (· == '0')).reverse

/-- The fraction; no point without digits. -/
def point (dp : Char) (ds : List Char) : List Char := if ds.isEmpty then [] else dp :: ds

/-- The exponent, at least two digits. -/
def expText (X : Int) : List Char :=
  let ds := OStream.digits X.natAbs
  'e' :: (if X < 0 then '-' else '+') :: (if ds.length < 2 then '0' :: ds else ds)

/-- `%g` of `m * 10^(X+1-P)` where `m` has `P` digits ([facet.num.put.virtuals], C 7.21.6.1): with an exponent if it is below -4 or not below the
precision, and without zeros at the end of the fraction. -/
def decText (dp : Char) (P : Nat) (m : Nat) (X : Int) : List Char :=
  let ds := OStream.digits m
  if X < -4 ∨ (P : Int) ≤ X then ds.take 1 ++ point dp (trim (ds.drop 1)) ++ expText X
  else if 0 ≤ X then ds.take (X.toNat + 1) ++ point dp (trim (ds.drop (X.toNat + 1)))
  else '0' :: point dp (trim (List.replicate (-X - 1).toNat '0' ++ ds))

/-- The text of a number. A precision of 0 is taken as 1. -/
def text (dp : Char) (P : Nat) (x : Rat) : List Char :=
  let P := max P 1
  if x = 0 then ['0']
  else if x < 0 then '-' :: decText dp P (decimal P (-x)).1 (decimal P (-x)).2
  else decText dp P (decimal P x).1 (decimal P x).2

/-- `os << x`. -/
def put (dp : Char) (P : Nat) (os : OStream) (x : Rat) : OStream := os.put (text dp P x)

/-- The characters that belong to a number of the grammar of `strtod` (decimal): sign, digits before and after the point, and the exponent
if there are digits before it. -/
structure Field where
  sign : List Char
  whole : List Char
  frac : Option (List Char)
  exp : Option (List Char × List Char)
  rest : List Char

open IStream in
/-- The sign and the digits of an exponent. -/
def exponent (sign whole : List Char) (frac : Option (List Char)) (t : List Char) : Field :=
  ⟨sign, whole, frac, some (t.take (signLength t), (t.drop (signLength t)).takeWhile isDigit), (t.drop (signLength t)).dropWhile isDigit⟩

/-- What comes after the digits. -/
def fieldEnd (sign whole : List Char) (frac : Option (List Char)) : List Char → Field
  | 'e' :: t => exponent sign whole frac t
  | 'E' :: t => exponent sign whole frac t
  | l => ⟨sign, whole, frac, none, l⟩

open IStream in
/-- The digits after the point, if there is one. -/
def fraction (dp : Char) : List Char → Option (List Char) × List Char
  | [] => (none, [])
  | c :: t => if c = dp then (some (t.takeWhile isDigit), t.dropWhile isDigit) else (none, c :: t)

open IStream in
/-- The longest beginning of the text that can be one. -/
def field (dp : Char) (l : List Char) : Field :=
  let sign := l.take (signLength l)
  let l := l.drop (signLength l)
  let whole := l.takeWhile isDigit
  let fr := fraction dp (l.dropWhile isDigit)
  if whole.isEmpty && (fr.1.getD []).isEmpty then ⟨sign, whole, fr.1, none, fr.2⟩ else fieldEnd sign whole fr.1 fr.2

open IStream in
/-- The number that a field denotes; none if there are no digits, or none in the exponent. -/
def Field.value (f : Field) : Option Rat :=
  let fr := f.frac.getD []
  if f.whole.isEmpty && fr.isEmpty then none
  else
    let e : Option Int := match f.exp with
      | none => some 0
      | some (s, ds) =>
        if ds.isEmpty then none else some (if s = ['-'] then -(digitsValue 0 ds : Int) else digitsValue 0 ds)
    e.map fun e =>
      let v := (digitsValue 0 (f.whole ++ fr) : Rat) * (10 : Rat) ^ (e - (fr.length : Int))
      if f.sign = ['-'] then -v else v

/-- `std::num_get` for `double` (`p` = 53): the field is extracted and the nearest number of the format is stored; 0 and failbit if the field is no
number. -/
def extract (dp : Char) (p : Nat) (s : IStream) : Rat × IStream :=
  let f := field dp s.rest
  let s' := { s with before := (s.rest.take (s.rest.length - f.rest.length)).reverse ++ s.before, rest := f.rest,
                     eof := s.eof || f.rest.isEmpty }
  match f.value with
  | none => (0, { s' with fail := true })
  | some v => (round p v, s')

/-- `is >> x`. When the sentry fails the variable keeps its value. -/
def read (dp : Char) (p : Nat) (s : IStream) (x : Rat) : Rat × IStream :=
  let r := s.sentry false
  if r.1 then extract dp p r.2 else (x, r.2)

end Helper.Double
