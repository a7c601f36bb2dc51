/-!
# Model of `HELPER_USING_CONSTRUCTORS` (macros.hpp:42-47)

A class `D` derived from `B` whose constructors are those of the macro:

    template<class T, enable_if<is_convertible<T,B>>> D(const T& t) : B(t) { }
    template<class T, enable_if<is_constructible<T,B> and not is_convertible<T,B>>> explicit D(const T& t) : B(t) { }
    template<class ...Args> D(Args&&... args) : B(std::forward<Args>(args)...) { }

and the copy and move constructors that the compiler declares. The last template can be called without arguments, and there is no other
default constructor. Which one is called is decided by overload resolution ([over.match]); initialiser lists in braces, bit
fields, volatile and user-defined conversions to `D` are left out (the latter rank below everything here). The members of `D` have
default values of their own, for which `M` is a parameter.
-/
namespace Helper.Using

/-- Value categories: lvalue, const lvalue, rvalue, const rvalue. -/
inductive Cat where
  | lv | clv | rv | crv
deriving DecidableEq, Repr

/-- Types of arguments: types that have nothing to do with `D`, the base `B`, `D` itself, a class derived from `D`. -/
inductive Ty where
  | other (n : Nat) | base | self | derived
deriving DecidableEq, Repr

/-- An argument. `b` is its part of type `B` and `m` its members, if it has them; `n` the value of an object of another type. -/
structure Arg (β M : Type) where
  ty : Ty
  cat : Cat
  n : Int
  b : β
  m : M
deriving DecidableEq, Repr

/-- The base class: the object made by `B(args…)`, `none` if this is ill-formed; `std::is_convertible<T,B>`; and
`std::is_constructible<T,B>`. -/
structure Base (β M : Type) where
  init : List (Arg β M) → Option β
  implicit : Ty → Bool
  fromBase : Ty → Bool

/-- Reference types of parameters: `T&`, `const T&`, `T&&`, `const T&&`. -/
inductive Ref where
  | l | cl | r | cr
deriving DecidableEq, Repr

inductive Ctor where
  | convert | explicit_ | forward | copy | move
deriving DecidableEq, Repr

/-- A viable constructor with one parameter; `spec` orders templates by partial ordering ([temp.func.order]): `const T&` is more specialised
than the pack. -/
structure Cand where
  ctor : Ctor
  ty : Ty
  ref : Ref
  template : Bool
  spec : Nat
deriving DecidableEq, Repr

/-- What `Args&&` becomes ([temp.deduct.call]). -/
def Cat.ref : Cat → Ref
  | .lv => .l
  | .clv => .cl
  | .rv => .r
  | .crv => .cr

variable {β M : Type}

/-- The viable constructors for one argument; in copy-initialisation, explicit ones do not take part ([over.match.copy]). -/
def cands (K : Base β M) (copyInit : Bool) (a : Arg β M) : List Cand :=
  (if K.implicit a.ty then [⟨.convert, a.ty, .cl, true, 1⟩] else []) ++
  (if K.fromBase a.ty && !K.implicit a.ty && !copyInit then [⟨.explicit_, a.ty, .cl, true, 1⟩] else []) ++
  [⟨.forward, a.ty, a.cat.ref, true, 0⟩] ++
  (if a.ty = .self ∨ a.ty = .derived then [⟨.copy, .self, .cl, false, 0⟩] else []) ++
  (if (a.ty = .self ∨ a.ty = .derived) ∧ a.cat = .rv then [⟨.move, .self, .r, false, 0⟩] else [])

/-- Rank of the conversion: identity, or derived to base. -/
def Cand.rank (a : Arg β M) (c : Cand) : Nat := if c.ty = a.ty then 0 else 1

def Cat.isR : Cat → Bool
  | .rv | .crv => true
  | _ => false

def Ref.isR : Ref → Bool
  | .r | .cr => true
  | _ => false

def Ref.isConst : Ref → Bool
  | .cl | .cr => true
  | _ => false

/-- Of two reference bindings of the same rank, the first is better ([over.ics.rank] 3.2.3 and 3.2.6): it binds an rvalue reference to an rvalue
and the other does not, or the referred type is less cv-qualified. -/
def refBetter (a : Arg β M) (p q : Ref) : Bool :=
  (a.cat.isR && p.isR && !q.isR) || (p.isR == q.isR && !p.isConst && q.isConst)

/-- The first candidate is better ([over.match.best]). -/
def better (a : Arg β M) (c d : Cand) : Bool :=
  if c.rank a < d.rank a then true
  else if d.rank a < c.rank a then false
  else if refBetter a c.ref d.ref then true
  else if refBetter a d.ref c.ref then false
  else if !c.template && d.template then true
  else c.template && d.template && c.spec > d.spec

/-- The candidate that is better than all others. -/
def best (a : Arg β M) (l : List Cand) : Option Cand :=
  l.find? fun c => l.all fun d => c == d || better a c d

/-- The constructor called for the arguments; `none`: the call is ambiguous. With a number of arguments other than one only the last template is
viable. -/
def choose (K : Base β M) (copyInit : Bool) : List (Arg β M) → Option Ctor
  | [a] => (best a (cands K copyInit a)).map Cand.ctor
  | _ => some .forward

/-- What a constructor does: the part of type `B` and the members; `none` if its definition is ill-formed for the arguments. The first two
templates pass on a const lvalue. The compiler's constructors copy or move the parts of the object. -/
def Ctor.run (K : Base β M) (dflt : M) : Ctor → List (Arg β M) → Option (β × M)
  | .convert, [a] => (K.init [{ a with cat := .clv }]).map fun b => (b, dflt)
  | .explicit_, [a] => (K.init [{ a with cat := .clv }]).map fun b => (b, dflt)
  | .copy, [a] => (K.init [{ a with ty := .base, cat := .clv }]).map fun b => (b, a.m)
  | .move, [a] => (K.init [{ a with ty := .base, cat := .rv }]).map fun b => (b, a.m)
  | _, args => (K.init args).map fun b => (b, dflt)

/-- `D d(args…)`, or `D d = a` if `copyInit`. -/
def construct (K : Base β M) (dflt : M) (copyInit : Bool) (args : List (Arg β M)) : Option (β × M) :=
  match choose K copyInit args with
  | some c => c.run K dflt args
  | none => none

end Helper.Using
