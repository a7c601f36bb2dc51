import Verif.Basic
/-!
# Model of the choice between overloads (container.hpp:80-87, 318-327, array.hpp:81-104)

The overloads of `make_list` and `make_array`, and the constructors of `List` and `Array` from counts and values, differ only in
their parameter types, so which code runs is decided by overload resolution. The model has the part of it that matters here:
exact matches, promotions and conversions of arithmetic types, conversions from a derived class to its base, the preference of
ordinary functions over templates and of more specialised templates over less specialised ones. User-defined conversions are
left out: they rank below everything modelled here.
-/
namespace Helper.Overload

/-- Types: arithmetic types, other classes, and the containers. -/
inductive Ty where
  | short | int | uint | size | float | double
  | cls (n : Nat)
  | vector (t : Ty)
  | list (t : Ty)
  | stdSet (t : Ty)
  | set (t : Ty)
  | array (t : Ty)
deriving DecidableEq, Repr

/-- Arithmetic types. -/
def Ty.arith : Ty → Bool
  | .short | .int | .uint | .size | .float | .double => true
  | _ => false

/-- Ranks of standard conversions, the better the smaller. -/
abbrev Rank := Nat
def exact : Rank := 0
def promotion : Rank := 1
def conversion : Rank := 2

/-- Rank of the conversion of an argument of type `a` to a parameter of type `b` or `const b&`. -/
def convRank (a b : Ty) : Option Rank :=
  if a = b then some exact
  else if (a = .short ∧ b = .int) ∨ (a = .float ∧ b = .double) then some promotion
  else if a.arith ∧ b.arith then some conversion
  else none

/-- The parameter patterns of the templates. -/
inductive Pat where
  /-- `const T&` -/ | any
  /-- `const std::vector<T>&` -/ | vector
  /-- `const Array<T>&` -/ | array
  /-- `const Set<T>&` -/ | set
deriving DecidableEq, Repr

/-- Deduction of the template parameter `T`, with the rank of the conversion: a class derived from the pattern is
accepted (container.hpp:71: `List` derives from `std::vector`). -/
def Pat.deduce : Pat → Ty → Option (Ty × Rank)
  | .any, a => some (a, exact)
  | .vector, .vector t => some (t, exact)
  | .vector, .list t => some (t, conversion)
  | .array, .array t => some (t, exact)
  | .set, .set t => some (t, exact)
  | _, _ => none

/-- A viable candidate: what it is, the ranks of its arguments, whether it is a template, and how specialised. -/
structure Cand (C : Type) where
  what : C
  ranks : List Rank
  template : Bool
  spec : Nat

/-- One candidate is better than another. -/
def Cand.better {C : Type} (a b : Cand C) : Bool :=
  (List.zip a.ranks b.ranks).all (fun r => r.1 ≤ r.2) &&
    ((List.zip a.ranks b.ranks).any (fun r => r.1 < r.2) || (!a.template && b.template) ||
      (a.template && b.template && a.spec > b.spec))

/-- The candidate that is better than all the others, if there is one; `pre` are the candidates already passed. -/
def resolveFrom {C : Type} : List (Cand C) → List (Cand C) → Option C
  | _, [] => none
  | pre, c :: post => if (pre ++ post).all (fun d => c.better d) then some c.what else resolveFrom (pre ++ [c]) post

/-- Overload resolution; `none` if no candidate is viable or the call is ambiguous. -/
def resolve {C : Type} (cs : List (Cand C)) : Option C := resolveFrom [] cs

/-- The viable candidates among function templates with one parameter. -/
def unary (a : Ty) (ps : List Pat) : List (Cand (Pat × Ty)) :=
  ps.filterMap fun p => (p.deduce a).map fun r => ⟨(p, r.1), [r.2], true, if p = .any then 0 else 1⟩

/-- Values. -/
inductive Val where
  | prim (t : Ty) (v : Int)
  | vector (t : Ty) (l : List Val)
  | list (t : Ty) (l : List Val)
  | stdSet (t : Ty) (l : List Val)
  | set (t : Ty) (l : List Val)
  | array (t : Ty) (l : List Val)

/-- The type of a value. -/
def Val.ty : Val → Ty
  | .prim t _ => t
  | .vector t _ => .vector t
  | .list t _ => .list t
  | .stdSet t _ => .stdSet t
  | .set t _ => .set t
  | .array t _ => .array t

/-- The elements of a container, in iteration order. -/
def Val.elems : Val → List Val
  | .prim _ _ => []
  | .vector _ l | .list _ l | .stdSet _ l | .set _ l | .array _ l => l

/-- The constructors of `Array<t>` that two arguments may select. -/
inductive ArrayCtor where
  /-- array.hpp:85 -/ | countValue
  /-- array.hpp:100-104 -/ | iterators
deriving DecidableEq, Repr

/-- `Array<t>(n,x)` with arguments of the types `a` and `b`: lines 85 and 100-104; the generator (line 95) is not viable, `x`
being no function. -/
def arrayCtor (t a b : Ty) : Option ArrayCtor :=
  let c1 : List (Cand ArrayCtor) :=
    match convRank a .size, convRank b t with
    | some r, some q => [⟨.countValue, [r, q], false, 0⟩]
    | _, _ => []
  let c2 : List (Cand ArrayCtor) := if a = b then [⟨.iterators, [exact, exact], true, 0⟩] else []
  resolve (c1 ++ c2)

/-- The constructors of `List<t>` that one argument may select. -/
inductive ListCtor where
  /-- container.hpp:83 -/ | value
  /-- container.hpp:80, the inherited `explicit vector(size_type)` -/ | count
deriving DecidableEq, Repr

/-- `List<t>(x)` with an argument of type `a` that is no container. -/
def listCtor (t a : Ty) : Option ListCtor :=
  let c1 : List (Cand ListCtor) := match convRank a t with
    | some r => [⟨.value, [r], false, 0⟩]
    | none => []
  let c2 : List (Cand ListCtor) := match convRank a .size with
    | some r => [⟨.count, [r], false, 0⟩]
    | none => []
  resolve (c1 ++ c2)

/-- container.hpp:322-325 `make_list(x)`; `none`: does not compile. Line 322 constructs `List<T>(1u,t)`, where the iterator
constructor of `std::vector` does not take part for types that are no iterators; line 324 has no constructor `List(Array)` to
call. -/
def makeList (x : Val) : Option Val :=
  match resolve (unary x.ty [.any, .vector, .array, .set]) with
  | some (.any, t) => some (.list t [x])
  | some (.vector, t) => some (.list t x.elems)
  | some (.array, _) => none
  | some (.set, t) => some (.list t x.elems)
  | none => none

/-- container.hpp:318-320 `make_array(x)`. Line 318 constructs `Array<T>(1u,t)`; the iterator constructor does not compile for
types that are no iterators. -/
def makeArray (x : Val) : Option Val :=
  match resolve (unary x.ty [.any, .vector, .array]) with
  | some (.any, t) =>
    match arrayCtor t .uint t with
    | some .countValue => some (.array t [x])
    | some .iterators => none
    | none => none
  | some (.vector, t) => some (.array t x.elems)
  | some (.array, t) => some (.array t x.elems)
  | some (.set, _) => none
  | none => none

/-- What constructing a container from a count `n` and a value `x`, or from a count alone, gives. -/
inductive Outcome (V : Type) where
  | elements (l : List V)
  | illFormed
deriving DecidableEq, Repr

/-- `Array<t>(n,x)`, `n` of type `a` and `x` of type `b`, a type converted to `t` without change of value. -/
def arrayCountValue {V : Type} (t a b : Ty) (n : Nat) (x : V) : Outcome V :=
  match arrayCtor t a b with
  | some .countValue => .elements (List.replicate n x)
  | some .iterators => .illFormed
  | none => .illFormed

/-- `List<t>(n)`, `n` of type `a`; `ofNat` is the number as an element. -/
def listCount {V : Type} (t a : Ty) (ofNat : Nat → V) (dflt : V) (n : Nat) : Outcome V :=
  match listCtor t a with
  | some .value => .elements [ofNat n]
  | some .count => .elements (List.replicate n dflt)
  | none => .illFormed

end Helper.Overload
