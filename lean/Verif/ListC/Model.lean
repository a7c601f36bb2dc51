import Verif.Basic
/-!
# Model of `List` and its free functions (container.hpp:71-125, 318-327)

A `std::vector` is the list of its elements. Not modelled: allocation failure and the maximum size of a
vector (a loop that appends without end is reported as not terminating; in reality it ends in
`bad_alloc` or `length_error`). Functions passed to `apply` and `elementwise` that change the list
they are applied to are in `Changing.lean`.
-/
namespace Helper.ListC

variable {α : Type u} {β : Type v} {γ : Type w}

/-- A `const std::vector<T>&` argument: another vector, or the list that is being changed. -/
inductive Arg (α : Type u) where
  | other (l : List α)
  | self
deriving Repr

def Arg.now : Arg α → List α → List α
  | .other l, _ => l
  | .self, cur => cur

/-- container.hpp:83 `List(t)`, 322 `make_list(t)`. -/
def single (t : α) : List α := List.replicate 1 t

/-- container.hpp:82, 84-87: conversion from other vectors, 323 `make_list(vector)`; `f` converts an element. -/
def convert (f : α → β) (l : List α) : List β := l.map f

/-- container.hpp:88 `append(t)`. -/
def append (l : List α) (t : α) : List α := l ++ [t]

/-- container.hpp:89-92, the loops of `append(vector)` and `concatenate`: `i` is an `unsigned int`, and
`t.size()` and `t[i]` are read in every pass. The fuel bounds the passes; `none` when it is used up. -/
def appendLoop (arg : Arg α) : Nat → Nat → List α → Option (Res (List α))
  | 0, _, _ => none
  | fuel + 1, i, cur =>
    if i ≠ (arg.now cur).length then
      match (arg.now cur)[i]? with
      | some x => appendLoop arg fuel ((i + 1) % 2 ^ 32) (cur ++ [x])
      | none => some (.ub .outOfBounds)
    else some (.ok cur)

/-- container.hpp:89-90 `append(vector)`. -/
def appendList (fuel : Nat) (l : List α) (a : Arg α) : Option (Res (List α)) := appendLoop a fuel 0 l

/-- container.hpp:91-92 `concatenate`. -/
def concatenate (fuel : Nat) (l : List α) (a : Arg α) : Option (Res (List α)) := appendLoop a fuel 0 l

/-- container.hpp:94-100 `catenate(l1,l2)`: the result is a copy of `l1`. -/
def catenateLoop : List α → List α → List α
  | [], r => r
  | x :: l2, r => catenateLoop l2 (append r x)

def catenate (l1 l2 : List α) : List α := catenateLoop l2 l1

/-- container.hpp:101-105 `catenate(l1,t2)`. -/
def catenateElem (l1 : List α) (t2 : α) : List α := append l1 t2

/-- A callable: a call may change a state (its own, or global) and may throw. -/
abbrev Fn (σ : Type) (α : Type u) (β : Type v) := α → σ → Res β × σ

/-- container.hpp:106-110 `apply(f,lst)`, the loop. -/
def applyLoop {σ : Type} (f : Fn σ α β) : List α → List β → σ → Res (List β) × σ
  | [], res, s => (.ok res, s)
  | x :: l, res, s =>
    match f x s with
    | (.ok y, s') => applyLoop f l (append res y) s'
    | (.exn e, s') => (.exn e, s')
    | (.ub k, s') => (.ub k, s')
    | (.abort, s') => (.abort, s')

def apply {σ : Type} (f : Fn σ α β) (l : List α) (s : σ) : Res (List β) × σ := applyLoop f l [] s

/-- container.hpp:112-117 `elementwise(f,l)`, the loop with `n` passes to go. -/
def elementwiseLoop {σ : Type} (f : Fn σ α β) (l : List α) : Nat → Nat → List β → σ → Res (List β) × σ
  | 0, _, r, s => (.ok r, s)
  | n + 1, i, r, s =>
    match l[i]? with
    | none => (.ub .outOfBounds, s)
    | some x =>
      match f x s with
      | (.ok y, s') => elementwiseLoop f l n (i + 1) (append r y) s'
      | (.exn e, s') => (.exn e, s')
      | (.ub k, s') => (.ub k, s')
      | (.abort, s') => (.abort, s')

def elementwise {σ : Type} (f : Fn σ α β) (l : List α) (s : σ) : Res (List β) × σ :=
  elementwiseLoop f l l.length 0 [] s

/-- container.hpp:119-125 `elementwise(f,l1,l2)`, the loop with `n` passes to go. -/
def elementwise2Loop {σ : Type} (f : α → Fn σ β γ) (l1 : List α) (l2 : List β) : Nat → Nat → List γ → σ → Res (List γ) × σ
  | 0, _, r, s => (.ok r, s)
  | n + 1, i, r, s =>
    match l1[i]?, l2[i]? with
    | some x, some y =>
      match f x y s with
      | (.ok z, s') => elementwise2Loop f l1 l2 n (i + 1) (append r z) s'
      | (.exn e, s') => (.exn e, s')
      | (.ub k, s') => (.ub k, s')
      | (.abort, s') => (.abort, s')
    | _, _ => (.ub .outOfBounds, s)

/-- container.hpp:119-125; the `assert` is compiled in without `NDEBUG`. -/
def elementwise2 {σ : Type} (ndebug : Bool) (f : α → Fn σ β γ) (l1 : List α) (l2 : List β) (s : σ) : Res (List γ) × σ :=
  if !ndebug && l1.length ≠ l2.length then (.abort, s) else elementwise2Loop f l1 l2 l1.length 0 [] s

end Helper.ListC
