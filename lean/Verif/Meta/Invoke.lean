/-!
# Property C83: the traits of callable types (metaprogramming.hpp:113-131, 148-175)

A type is `void`, or a class or scalar type that may be const and may be a reference. Which calls, conversions and
overloaded assignments exist is given by a world `W`; built-in assignment and the value categories are modelled.
-/
namespace Helper.Meta

/-- Reference kinds. -/
inductive Ref where
  | none | lvalue | rvalue
deriving DecidableEq, Repr

/-- Types with underlying types in `B`. -/
inductive Ty (B : Type) where
  | void
  | obj (base : B) (const : Bool) (ref : Ref)
deriving DecidableEq, Repr

/-- What the program declares. -/
structure World (B : Type) where
  isClass : B → Bool
  /-- type of `f(a)`, `f` and `a` expressions of type and value category `F&&`, `A&&` -/
  call : Ty B → Ty B → Option (Ty B)
  /-- an expression of that type converts implicitly to that type -/
  conv : Ty B → Ty B → Bool
  /-- the class has an `operator=` that accepts left and right expressions of these types -/
  classAssign : Ty B → Ty B → Bool

variable {B : Type}

/-- `declval<r>() = e`, `e` of type `q`, is well-formed. `declval<r>()` is an lvalue if `r` is an lvalue reference and an
rvalue otherwise; the built-in assignment needs a modifiable lvalue on the left. -/
def World.assigns (w : World B) : Ty B → Ty B → Bool
  | .obj b c k, q =>
    if w.isClass b then w.classAssign (.obj b c k) q
    else decide (k = .lvalue) && !c && (match q with | .void => false | _ => w.conv q (.obj b false .none))
  | .void, _ => false

/-- Lines 116-122 `IsInvocable<F,A>`: declared for any number of arguments, defined for one. -/
def World.isInvocable (w : World B) (f : Ty B) : List (Ty B) → Option Bool
  | [a] => some (w.call f a).isSome
  | _ => none

/-- Lines 124-130 `IsInvocableReturning<R,F,A>`: tests `declval<R>() = declval<F>()(declval<A>())`. -/
def World.isInvocableReturning (w : World B) (r f : Ty B) : List (Ty B) → Option Bool
  | [a] => some (match w.call f a with
    | some q => w.assigns r q
    | none => false)
  | _ => none

/-- Line 173 concept `InvocableReturning`, for one argument: `std::invocable` and `std::is_convertible` of the result. -/
def World.invocableReturning (w : World B) (r f a : Ty B) : Bool :=
  match w.call f a with
  | some q => w.conv q r
  | none => false

/-- Lines 151-152, 153-158, 162-163 concepts `Convertible`, `Constructible`, `ExplicitlyConvertible`, from the two
standard traits. -/
def explicitlyConvertible (constructible convertible : Bool) : Bool := constructible && !convertible

/-- What the name says: the call is possible and its result converts to `r`. -/
def World.CallReturning (w : World B) (r f a : Ty B) : Prop := ∃ q, w.call f a = some q ∧ w.conv q r = true

/-- C83: the concept is what its name says. -/
theorem C83_concept (w : World B) (r f a : Ty B) : w.invocableReturning r f a = true ↔ w.CallReturning r f a := by
  unfold World.invocableReturning World.CallReturning
  cases h : w.call f a with
  | none => simp
  | some q => simp

/-- C83: `IsInvocable` with one argument is what its name says; with any other number of arguments it is not defined. -/
theorem C83_isInvocable_partial (w : World B) (f : Ty B) (as : List (Ty B)) :
    w.isInvocable f as = if as.length = 1 then some (as.any fun a => (w.call f a).isSome) else none := by
  match as with
  | [] => rfl
  | [a] => simp [World.isInvocable]
  | a :: b :: l => simp [World.isInvocable]

/-- C83 is false for `IsInvocableReturning`: for a scalar result type it does not hold, whatever the function and the argument. -/
theorem C83_scalar_refuted (w : World B) (b : B) (c : Bool) (k : Ref) (hb : w.isClass b = false) (hk : k ≠ .lvalue) (f a : Ty B) :
    w.isInvocableReturning (.obj b c k) f [a] = some false := by
  simp only [World.isInvocableReturning]
  cases w.call f a with
  | none => rfl
  | some q => simp [World.assigns, hb, hk]

/-- A function from `int` to `int`: callable with result convertible to `int`, but the trait says no. -/
def intWorld : World Bool := ⟨fun _ => false, fun _ _ => some (.obj true false .none), fun _ _ => true, fun _ _ => false⟩

theorem C83_refuted : intWorld.CallReturning (.obj true false .none) (.obj false false .none) (.obj true false .none) ∧
    intWorld.isInvocableReturning (.obj true false .none) (.obj false false .none) [.obj true false .none] = some false :=
  ⟨⟨_, rfl, rfl⟩, rfl⟩

/-- C83 is false for `void`: a function without a result is not said to return `void`. -/
theorem C83_void_refuted (w : World B) (f a : Ty B) : w.isInvocableReturning .void f [a] = some false := by
  simp only [World.isInvocableReturning]
  cases w.call f a <;> rfl

/-- C83: what `IsInvocableReturning` means for references to scalars and for classes. -/
theorem C83_trait_partial (w : World B) (b : B) (c : Bool) (k : Ref) (f a : Ty B) :
    w.isInvocableReturning (.obj b c k) f [a] = some true ↔
      ∃ q, w.call f a = some q ∧
        ((w.isClass b = true ∧ w.classAssign (.obj b c k) q = true) ∨
         (w.isClass b = false ∧ k = .lvalue ∧ c = false ∧ q ≠ .void ∧ w.conv q (.obj b false .none) = true)) := by
  simp only [World.isInvocableReturning]
  cases h : w.call f a with
  | none => simp
  | some q =>
    cases hb : w.isClass b <;> cases q <;> simp [World.assigns, hb, and_assoc]

/-- C83: no type is both convertible and explicitly convertible, so that at most one of two overloads constrained by the two
(container.hpp:84-87, 168-174) takes part; a constructible type is one of them. -/
theorem C83_explicit (constructible convertible : Bool) :
    (explicitlyConvertible constructible convertible && convertible) = false ∧
    (constructible = true → (convertible || explicitlyConvertible constructible convertible) = true) := by
  cases constructible <;> cases convertible <;> decide

example : intWorld.isInvocableReturning (.obj true false .lvalue) (.obj false false .none) [.obj true false .none] = some true := rfl
example : intWorld.invocableReturning (.obj true false .none) (.obj false false .none) (.obj true false .none) = true := rfl
example : intWorld.isInvocable (.obj false false .none) [] = none := rfl

end Helper.Meta
