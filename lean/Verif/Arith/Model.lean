import Verif.Double.Props
/-!
# The result types of operators (metaprogramming.hpp:86-111, 134-138, 181-185), property C105

`SumType<X1,X2>` and its kin are `decltype`s of expressions. For built-in types these are given by the integral promotions [conv.prom] and the usual arithmetic
conversions [expr.arith.conv] of the C++20 standard, which are modelled here for every platform that the standard allows. Pointers to object types are included.
References and `volatile` at the top do not matter for the types of these expressions and are left out; `const` matters for the assignment operators only.
Left out: enumerations, pointers to members, extended integer types, `nullptr_t`, classes.
-/
namespace Helper.Arith

/-- The integer types [basic.fundamental]. -/
inductive ITy where
  | bool | char | schar | uchar | char8 | char16 | char32 | wchar | short | ushort | int | uint | long | ulong | llong | ullong
deriving DecidableEq, Repr

/-- The floating point types. -/
inductive FTy where
  | float | double | ldouble
deriving DecidableEq, Repr

/-- Built-in types: numbers, and pointers to objects (the number stands for the type of the objects, `const` included). -/
inductive Ty where
  | int (i : ITy)
  | flt (f : FTy)
  | ptr (o : Nat)
deriving DecidableEq, Repr

/-- What the standard leaves to the implementation. -/
structure Platform where
  /-- whether `char` is signed -/
  charSigned : Bool
  /-- whether `wchar_t` is signed -/
  wcharSigned : Bool
  wChar : Nat
  w16 : Nat
  w32 : Nat
  wWchar : Nat
  wShort : Nat
  wInt : Nat
  wLong : Nat
  wLLong : Nat
  /-- the number of binary digits of the floating point types -/
  digits : FTy → Nat
  /-- `std::ptrdiff_t` -/
  ptrdiff : ITy
  char_le : 8 ≤ wChar
  short_le : 16 ≤ wShort
  long_le : 32 ≤ wLong
  llong_le : 64 ≤ wLLong
  char_short : wChar ≤ wShort
  short_int : wShort ≤ wInt
  int_long : wInt ≤ wLong
  long_llong : wLong ≤ wLLong
  w16_pos : 16 ≤ w16
  w32_pos : 32 ≤ w32
  wWchar_pos : 8 ≤ wWchar
  w16_le : w16 ≤ wLLong
  w32_le : w32 ≤ wLLong
  wWchar_le : wWchar ≤ wLLong
  digits_pos : ∀ f, 0 < digits f
  digits_le : digits .float ≤ digits .double
  digits_le' : digits .double ≤ digits .ldouble

/-- Linux on 64-bit PCs: the platform of the project's continuous integration. -/
def lp64 : Platform where
  charSigned := true
  wcharSigned := true
  wChar := 8
  w16 := 16
  w32 := 32
  wWchar := 32
  wShort := 16
  wInt := 32
  wLong := 64
  wLLong := 64
  digits := fun | .float => 24 | .double => 53 | .ldouble => 64
  ptrdiff := .long
  char_le := by decide
  short_le := by decide
  long_le := by decide
  llong_le := by decide
  char_short := by decide
  short_int := by decide
  int_long := by decide
  long_llong := by decide
  w16_pos := by decide
  w32_pos := by decide
  wWchar_pos := by decide
  w16_le := by decide
  w32_le := by decide
  wWchar_le := by decide
  digits_pos := fun f => by cases f <;> decide
  digits_le := by decide
  digits_le' := by decide

variable (P : Platform)

def Platform.signed : ITy → Bool
  | .bool | .uchar | .char8 | .char16 | .char32 | .ushort | .uint | .ulong | .ullong => false
  | .schar | .short | .int | .long | .llong => true
  | .char => P.charSigned
  | .wchar => P.wcharSigned

def Platform.width : ITy → Nat
  | .bool => 1
  | .char | .schar | .uchar | .char8 => P.wChar
  | .char16 => P.w16
  | .char32 => P.w32
  | .wchar => P.wWchar
  | .short | .ushort => P.wShort
  | .int | .uint => P.wInt
  | .long | .ulong => P.wLong
  | .llong | .ullong => P.wLLong

/-- The least value of a type. -/
def Platform.lo (i : ITy) : Int := if P.signed i then -2 ^ (P.width i - 1) else 0

/-- The greatest value of a type. -/
def Platform.hi (i : ITy) : Int := if P.signed i then 2 ^ (P.width i - 1) - 1 else 2 ^ P.width i - 1

/-- `b` can represent all the values of `a`. -/
def Platform.fits (a b : ITy) : Bool := P.lo b ≤ P.lo a && P.hi a ≤ P.hi b

/-- Integral promotion [conv.prom]. -/
def Platform.promote : ITy → ITy
  | .bool => .int
  | .char => if P.fits .char .int then .int else .uint
  | .schar => if P.fits .schar .int then .int else .uint
  | .uchar => if P.fits .uchar .int then .int else .uint
  | .short => if P.fits .short .int then .int else .uint
  | .ushort => if P.fits .ushort .int then .int else .uint
  | .char8 => first .char8
  | .char16 => first .char16
  | .char32 => first .char32
  | .wchar => first .wchar
  | i => i
where
  /-- the first type in the list that can represent all values -/
  first (i : ITy) : ITy :=
    if P.fits i .int then .int else if P.fits i .uint then .uint else if P.fits i .long then .long else if P.fits i .ulong then .ulong
    else if P.fits i .llong then .llong else .ullong

/-- The conversion rank of the promoted types [conv.rank]. -/
def rank : ITy → Nat
  | .int | .uint => 0
  | .long | .ulong => 1
  | .llong | .ullong => 2
  | _ => 0

/-- The unsigned type of the same rank. -/
def unsignedOf : ITy → ITy
  | .int => .uint
  | .long => .ulong
  | .llong => .ullong
  | i => i

/-- [expr.arith.conv] for two promoted integer types. -/
def Platform.common (a b : ITy) : ITy :=
  if a = b then a
  else if P.signed a = P.signed b then if rank a < rank b then b else a
  else
    let u := if P.signed a then b else a
    let s := if P.signed a then a else b
    if rank s ≤ rank u then u
    else if P.fits u s then s
    else unsignedOf s

/-- [expr.arith.conv] for floating point types: the one of the greater rank. -/
def fcommon : FTy → FTy → FTy
  | .ldouble, _ | _, .ldouble => .ldouble
  | .double, _ | _, .double => .double
  | .float, .float => .float

/-- The usual arithmetic conversions. -/
def Platform.usual : Ty → Ty → Option Ty
  | .int a, .int b => some (.int (P.common (P.promote a) (P.promote b)))
  | .int _, .flt f => some (.flt f)
  | .flt f, .int _ => some (.flt f)
  | .flt f, .flt g => some (.flt (fcommon f g))
  | .ptr _, _ => none
  | _, .ptr _ => none

/-! The aliases; `none` if the expression is ill-formed. -/

/-- metaprogramming.hpp:93 -/
def Platform.negationType : Ty → Option Ty
  | .int a => some (.int (P.promote a))
  | .flt f => some (.flt f)
  | .ptr _ => none

/-- metaprogramming.hpp:94 [expr.add] -/
def Platform.sumType : Ty → Ty → Option Ty
  | .ptr o, .int _ => some (.ptr o)
  | .int _, .ptr o => some (.ptr o)
  | a, b => P.usual a b

/-- metaprogramming.hpp:95 [expr.add] -/
def Platform.differenceType : Ty → Ty → Option Ty
  | .ptr o, .int _ => some (.ptr o)
  | .ptr o, .ptr o' => if o = o' then some (.int P.ptrdiff) else none
  | a, b => P.usual a b

/-- metaprogramming.hpp:96 -/
def Platform.productType (a b : Ty) : Option Ty := P.usual a b

/-- metaprogramming.hpp:97 -/
def Platform.quotientType (a b : Ty) : Option Ty := P.usual a b

/-- metaprogramming.hpp:98: `SumType` of the product with itself. -/
def Platform.arithmeticType (a b : Ty) : Option Ty := (P.productType a b).bind fun t => P.sumType t t

/-- metaprogramming.hpp:108-109 `+=` (and `-=`) [expr.ass]: the type of the left operand without the reference, if it is not `const`. -/
def inplaceSumType (const : Bool) (a b : Ty) : Option Ty :=
  if const then none
  else match a, b with
    | .ptr o, .int _ => some (.ptr o)
    | .ptr _, _ => none
    | _, .ptr _ => none
    | a, _ => some a

/-- metaprogramming.hpp:110-111 `*=` and `/=`. -/
def inplaceProductType (const : Bool) (a b : Ty) : Option Ty :=
  if const then none
  else match a, b with
    | .ptr _, _ => none
    | _, .ptr _ => none
    | a, _ => some a

/-! The concepts. -/

/-- metaprogramming.hpp:182 -/
def Platform.canAdd (a b : Ty) : Bool := (P.sumType a b).isSome
/-- metaprogramming.hpp:183 -/
def Platform.canSubtract (a b : Ty) : Bool := (P.differenceType a b).isSome
/-- metaprogramming.hpp:184 -/
def Platform.canMultiply (a b : Ty) : Bool := (P.productType a b).isSome

/-- metaprogramming.hpp:134 -/
def builtinArithmetic : Ty → Bool
  | .ptr _ => false
  | _ => true

/-! Values. -/

/-- The numbers that an arithmetic type represents. -/
def Platform.Has : Ty → Rat → Prop
  | .int i, v => ∃ n : Int, v = n ∧ P.lo i ≤ n ∧ n ≤ P.hi i
  | .flt f, v => Double.Float (P.digits f) v
  | .ptr _, _ => False

/-- Conversion of integers to an integer type [conv.integral]: the value congruent modulo `2^w`. -/
def Platform.wrap (i : ITy) (n : Int) : Int := (n - P.lo i) % 2 ^ P.width i + P.lo i

/-- Conversion of an operand to the common type: [conv.integral], or rounding to nearest [conv.fpint]. -/
def Platform.conv (t : Ty) (v : Rat) : Rat :=
  match t with
  | .int i => P.wrap i v.floor
  | .flt f => Double.round (P.digits f) v
  | .ptr _ => v

/-- `x + y` for numbers: undefined if the result type is a signed integer type that does not represent the sum; modulo `2^w` for unsigned ones;
rounded for floating point types. -/
def Platform.add (a b : Ty) (x y : Rat) : Option Rat := (P.usual a b).bind (op fun t => P.conv t x + P.conv t y)
where
  op (f : Ty → Rat) (t : Ty) : Option Rat :=
    match t with
    | .int i =>
      if P.signed i then if P.lo i ≤ (f t).floor && (f t).floor ≤ P.hi i then some (f t) else none
      else some (P.conv t (f t))
    | _ => some (P.conv t (f t))

/-- `x * y` -/
def Platform.mul (a b : Ty) (x y : Rat) : Option Rat := (P.usual a b).bind (Platform.add.op P fun t => P.conv t x * P.conv t y)

/-- `x < y` -/
def Platform.less (a b : Ty) (x y : Rat) : Option Bool := (P.usual a b).map fun t => decide (P.conv t x < P.conv t y)

end Helper.Arith
