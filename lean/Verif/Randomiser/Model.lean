import Verif.Basic
/-!
# Model of the randomisers (randomiser.hpp:42-82)

The engine is an arbitrary state; `Dist` is a standard distribution class: any function from the bounds and the engine to a
value and the engine after drawing. The bounds must satisfy `min ≤ max` ([rand.dist.uni]), otherwise the
behaviour is undefined. The random generator is a variable with internal linkage (line 59), so that each translation unit has
its own; which of them a call of `get()` uses in a program of several translation units is left to the linker (the
definition of `get()` differs between them, which breaks the one-definition rule): `pick u` for a call in unit `u`. With one
unit there is one generator.
-/
namespace Helper.Randomiser

variable {V E : Type}

/-- A distribution type `D`: construction from bounds and call with an engine. -/
abbrev Dist (V E : Type) := V → V → E → V × E

/-- Lines 66-69: a randomiser keeps its distribution, that is, its bounds. -/
structure Randomiser (V : Type) where
  min : V
  max : V

/-- Lines 68, 76, 81: construction. For reals `max - min` must also be representable, which is not modelled (bounds are rational). -/
def make [LE V] [DecidableLE V] (min max : V) : Res (Randomiser V) :=
  if min ≤ max then .ok ⟨min, max⟩ else .ub .badBounds

/-- Line 71 `get()`, with the engine the call uses. -/
def get (d : Dist V E) (r : Randomiser V) (e : E) : V × E := d r.min r.max e

/-- Draws on any randomisers by calls in any translation units. -/
def draws (d : Dist V E) (pick : Nat → Nat) : List (Nat × Randomiser V) → (Nat → E) → List V × (Nat → E)
  | [], es => ([], es)
  | (u, r) :: rs, es =>
    let (v, e) := get d r (es (pick u))
    let (vs, es') := draws d pick rs (fun k => if k = pick u then e else es k)
    (v :: vs, es')

/-- Lines 61-64: deletion of an object of class `dyn` through a pointer to class `stat`. `RandomiserInterface` (class 0) has
no virtual destructor. -/
def delete (virtualDtor : Nat → Bool) (stat dyn : Nat) : Res Unit :=
  if stat = dyn ∨ virtualDtor stat then .ok () else .ub .nonVirtualDelete

/-- Class 0 is `RandomiserInterface<T>`, the other classes derive from it; none declares a virtual destructor. -/
def randomiserDtor (_ : Nat) : Bool := false

end Helper.Randomiser
