/-!
# Expressions with effects

A C++ expression or statement is a function of the state of the program, an arbitrary type `σ`, so that
how often and in which order expressions are evaluated is visible. It ends normally or throws.
-/
namespace Helper.Macro

/-- An exception: `std n` is of a type derived from `std::exception`, `std 0` is `std::runtime_error`; `other n` is not. -/
inductive Thrown where
  | std (n : Nat)
  | other (n : Nat)
deriving DecidableEq, Repr

def runtimeError : Thrown := .std 0

/-- How an evaluation ends. -/
inductive Out (α : Type) where
  | val (a : α)
  | thrown (t : Thrown)
deriving DecidableEq, Repr

abbrev Exp (σ α : Type) := σ → Out α × σ

variable {σ α β : Type}

namespace Exp

def pure (a : α) : Exp σ α := fun s => (.val a, s)

def bind (e : Exp σ α) (f : α → Exp σ β) : Exp σ β := fun s =>
  match e s with
  | (.val a, s') => f a s'
  | (.thrown t, s') => (.thrown t, s')

def throw (t : Thrown) : Exp σ α := fun s => (.thrown t, s)

/-- Two operands whose order of evaluation the standard leaves open: `rtl` tells whether the right one comes first. -/
def both (rtl : Bool) (e1 : Exp σ α) (e2 : Exp σ β) : Exp σ (α × β) :=
  if rtl then e2.bind fun b => e1.bind fun a => pure (a, b)
  else e1.bind fun a => e2.bind fun b => pure (a, b)

end Exp

end Helper.Macro
