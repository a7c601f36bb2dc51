/-!
# Outcomes of C++ code

Undefined behaviour, a thrown exception and `abort()` are outcomes of their own, so that no
precondition of the C++ code is assumed away.
-/
namespace Helper

/-- The C++ exceptions that the modelled code throws (`user n` stands for an exception of a type
chosen by user code, for instance by an element's copy constructor). -/
inductive Exn where
  | runtimeError
  | outOfRange
  | badAlloc
  | badCast
  | iosFailure
  | badFunctionCall
  | user (n : Nat)
deriving DecidableEq, Repr

/-- Kinds of undefined behaviour that the models detect. -/
inductive UB where
  /-- access outside an allocated block or container -/
  | outOfBounds
  /-- access to (or release of) a freed block, or through a dangling reference -/
  | dangling
  /-- use of an element whose lifetime has not started or has ended -/
  | notAlive
  /-- `erase(end())` -/
  | eraseEnd
  /-- use of an uninitialised variable -/
  | indeterminate
  /-- dereference of a null pointer -/
  | nullDeref
  /-- unsynchronised conflicting accesses from two threads -/
  | dataRace
  /-- signed integer overflow -/
  | overflow
  /-- `static_cast` of a base class object to a derived class it does not belong to -/
  | badDowncast
  /-- modification of an object defined const -/
  | constModified
  /-- bounds of a distribution in the wrong order -/
  | badBounds
  /-- `delete` through a pointer to a base class without virtual destructor -/
  | nonVirtualDelete
deriving DecidableEq, Repr

/-- Result of a C++ call. -/
inductive Res (α : Type u) where
  | ok (a : α)
  | exn (e : Exn)
  | ub (k : UB)
  /-- `abort()`, also a failed C `assert` -/
  | abort
deriving DecidableEq, Repr

namespace Res

/-- The call has undefined behaviour. -/
def isUB {α : Type u} : Res α → Bool
  | .ub _ => true
  | _ => false

/-- The call returns normally. -/
def isOk {α : Type u} : Res α → Bool
  | .ok _ => true
  | _ => false

/-- Sequencing: exceptions, undefined behaviour and aborts stop the computation. -/
def bind {α : Type u} {β : Type v} : Res α → (α → Res β) → Res β
  | .ok a, f => f a
  | .exn e, _ => .exn e
  | .ub k, _ => .ub k
  | .abort, _ => .abort

instance : Monad Res where
  pure := .ok
  bind := Res.bind

@[simp] theorem pure_eq {α : Type u} (a : α) : (pure a : Res α) = .ok a := rfl
@[simp] theorem ok_bind {α β : Type u} (a : α) (f : α → Res β) : (Res.ok a >>= f) = f a := rfl
@[simp] theorem exn_bind {α β : Type u} (e : Exn) (f : α → Res β) : (Res.exn e >>= f) = .exn e := rfl
@[simp] theorem ub_bind {α β : Type u} (k : UB) (f : α → Res β) : (Res.ub k >>= f) = .ub k := rfl
@[simp] theorem abort_bind {α β : Type u} (f : α → Res β) : (Res.abort >>= f) = .abort := rfl
@[simp] theorem isUB_ok {α : Type u} (a : α) : (Res.ok a).isUB = false := rfl
@[simp] theorem isUB_exn {α : Type u} (e : Exn) : (Res.exn e : Res α).isUB = false := rfl
@[simp] theorem isUB_ub {α : Type u} (k : UB) : (Res.ub k : Res α).isUB = true := rfl
@[simp] theorem isUB_abort {α : Type u} : (Res.abort : Res α).isUB = false := rfl

end Res

end Helper
