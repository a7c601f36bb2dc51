import Verif.Basic
/-!
# Model of `include/lazy.hpp`

`Lazy` variables are numbered in the order of their construction. The factory is a user function with
arbitrary behaviour: the outcome of the `k`-th call of the whole run is `f k`. The object made by the
`k`-th call is called `k`; a factory passes the ownership of a new object to the Lazy each time.
`std::shared_ptr` is taken as specified by the standard: the object is deleted when its last owner gives
it up; if no control block can be allocated, `reset(p)` deletes `p` and throws `std::bad_alloc`.
Copying a `std::function` does not fail here; a moved-from one is empty, as in the usual libraries.
A factory that uses Lazy variables itself is modelled in `Lazy.Reentrant`.
-/
namespace Helper.Lazy

inductive Outcome where
  /-- a new object -/
  | obj
  /-- a null pointer -/
  | null
  | throws (e : Exn)
  /-- a new object, but there is no memory for the control block -/
  | noBlock
deriving DecidableEq, Repr

/-- lazy.hpp:50-51: the members; `func` tells whether the function is non-empty. -/
structure Lz where
  func : Bool
  obj : Option Nat
deriving DecidableEq, Repr

structure World where
  /-- the variables; `none` after destruction -/
  lz : List (Option Lz)
  /-- the calls of factories so far, each with the variable it was called for -/
  calls : List Nat
  /-- the objects deleted so far -/
  deleted : List Nat
deriving DecidableEq, Repr

def World.get (w : World) (x : Nat) : Option Lz := (w.lz[x]?).join

def World.set (w : World) (x : Nat) (z : Option Lz) : World := { w with lz := w.lz.set x z }

/-- Some variable owns object `k`. -/
def World.held (w : World) (k : Nat) : Bool := w.lz.any fun o => o.any fun z => z.obj == some k

/-- An owner of the object has given it up. -/
def World.drop (w : World) : Option Nat → World
  | none => w
  | some k => if w.held k then w else { w with deleted := w.deleted ++ [k] }

/-- lazy.hpp:47 `operator()`. -/
def eval (f : Nat → Outcome) (x : Nat) (w : World) : Res Nat × World :=
  match w.get x with
  | none => (.ub .notAlive, w)
  | some z =>
    match z.obj with
    | some k => (.ok k, w)
    | none =>
      if z.func then
        let w1 : World := { w with calls := w.calls ++ [x] }
        match f w.calls.length with
        | .obj => (.ok w.calls.length, w1.set x (some ⟨true, some w.calls.length⟩))
        | .null => (.ub .nullDeref, w1)
        | .throws e => (.exn e, w1)
        | .noBlock => (.exn .badAlloc, { w1 with deleted := w1.deleted ++ [w.calls.length] })
      else (.exn .badFunctionCall, w)

inductive Op where
  /-- lazy.hpp:48; `func` tells whether the function given is non-empty -/ | construct (func : Bool)
  /-- implicit copy constructor, from `y` -/ | copy (y : Nat)
  /-- implicit move constructor, from `y` -/ | move (y : Nat)
  /-- implicit copy assignment `x = y` -/ | assign (x y : Nat)
  /-- implicit move assignment `x = std::move(y)` -/ | moveAssign (x y : Nat)
  /-- implicit destructor -/ | destroy (x : Nat)
  | eval (x : Nat)
deriving DecidableEq, Repr

/-- One operation: the object returned (by `eval`) and the new state. -/
def step (f : Nat → Outcome) : Op → World → Res (Option Nat) × World
  | .construct func, w => (.ok none, { w with lz := w.lz ++ [some ⟨func, none⟩] })
  | .copy y, w =>
    match w.get y with
    | none => (.ub .notAlive, w)
    | some z => (.ok none, { w with lz := w.lz ++ [some z] })
  | .move y, w =>
    match w.get y with
    | none => (.ub .notAlive, w)
    | some z =>
      let w1 := w.set y (some ⟨false, none⟩)
      (.ok none, { w1 with lz := w1.lz ++ [some z] })
  | .assign x y, w =>
    match w.get x, w.get y with
    | some zx, some zy => (.ok none, (w.set x (some zy)).drop zx.obj)
    | _, _ => (.ub .notAlive, w)
  | .moveAssign x y, w =>
    match w.get x, w.get y with
    | some zx, some zy =>
      if x = y then (.ok none, w)
      else (.ok none, ((w.set x (some zy)).set y (some ⟨false, none⟩)).drop zx.obj)
    | _, _ => (.ub .notAlive, w)
  | .destroy x, w =>
    match w.get x with
    | none => (.ub .notAlive, w)
    | some z => (.ok none, (w.set x none).drop z.obj)
  | .eval x, w =>
    match eval f x w with
    | (.ok k, w') => (.ok (some k), w')
    | (.exn e, w') => (.exn e, w')
    | (.ub u, w') => (.ub u, w')
    | (.abort, w') => (.abort, w')

/-- A history: exceptions are caught by the caller, undefined behaviour ends it. -/
def run (f : Nat → Outcome) : List Op → World → List (Res (Option Nat)) × World
  | [], w => ([], w)
  | o :: os, w =>
    match step f o w with
    | (.ub u, w') => ([.ub u], w')
    | (r, w') => let (rs, w'') := run f os w'; (r :: rs, w'')

def World.init : World := ⟨[], [], []⟩

end Helper.Lazy
