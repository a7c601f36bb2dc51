import Verif.Basic
/-!
# Model of `Handle` (handle.hpp:54-180)

Handles, client `shared_ptr`s and client references are numbered in the order of their creation. Objects
have identities that are never reused; an object has a dynamic class and a value. `std::shared_ptr` is taken
as specified by the standard: the object is deleted when its last owner (a handle or a client pointer)
gives it up. `clone()`, `_copy()` and `_move()` are user code: they make a new object of the same
class and value, or throw. Allocation does not fail otherwise. For `Handle<const I>` the accessors are the
const ones (line 110), so only `Handle<I>` with non-const `I` is modelled here (see `Const.lean`); conversions between handles of
different interfaces (line 82) share the object as a copy does.
-/
namespace Helper.Handle

structure St (V : Type) where
  /-- live objects: class and value -/
  objs : Nat → Option (Nat × V)
  next : Nat
  /-- handles: `none` after destruction, `some none` holding a null pointer -/
  hs : List (Option (Option Nat))
  /-- client `shared_ptr`s; `none` if null -/
  ps : List (Option Nat)
  /-- client references and raw pointers: the object, and whether they are non-const -/
  refs : List (Nat × Bool)

variable {V : Type}

def upd {α : Type u} (f : Nat → α) (x : Nat) (a : α) : Nat → α := fun y => if y = x then a else f y

/-- Some owner has object `o`. -/
def St.owned (s : St V) (o : Nat) : Bool := s.hs.any (· == some (some o)) || s.ps.any (· == some o)

/-- An owner has given up the object. -/
def St.drop (s : St V) : Option Nat → St V
  | none => s
  | some o => if s.owned o then s else { s with objs := upd s.objs o none }

/-- The pointer held by handle `x`: undefined if the handle does not exist. -/
def St.get (s : St V) (x : Nat) : Res (Option Nat) :=
  match s.hs[x]? with
  | some (some p) => .ok p
  | _ => .ub .notAlive

/-- The object held by handle `x`: `*_ptr` and `_ptr->` are undefined for a null pointer. -/
def St.obj (s : St V) (x : Nat) : Res Nat :=
  (s.get x).bind fun p => match p with
    | none => .ub .nullDeref
    | some o => .ok o

/-- Lines 69-75: a handle to a new object of class `c` with value `v`. -/
def create (c : Nat) (v : V) (s : St V) : St V :=
  { s with objs := upd s.objs s.next (some (c, v)), next := s.next + 1, hs := s.hs ++ [some (some s.next)] }

/-- Lines 108-109 `make_unique()`: the clone always replaces the object, shared or not. `fail` is the
exception thrown by `clone()`, if any. -/
def makeUnique (fail : Option Exn) (x : Nat) (s : St V) : Res Nat × St V :=
  match s.obj x with
  | .ok o =>
    match fail with
    | some e => (.exn e, s)
    | none =>
      match s.objs o with
      | none => (.ub .dangling, s)
      | some cv =>
        (.ok s.next, St.drop { s with objs := upd s.objs s.next (some cv), next := s.next + 1, hs := s.hs.set x (some (some s.next)) } (some o))
  | .exn e => (.exn e, s)
  | .ub u => (.ub u, s)
  | .abort => (.abort, s)

/-- Public classes of a program: the direct bases of each class, declared before it; `wrapper t i` is the
class `Wrapper<t,i>` (lines 54-60), which derives from `t` and `i`, if it occurs. Inheritance is public
and unambiguous. -/
structure Classes where
  bases : Nat → List Nat
  lt : ∀ k b, b ∈ bases k → b < k
  wrapper : Nat → Nat → Option Nat
  wraps : ∀ t i w, wrapper t i = some w → t ∈ bases w ∧ i ∈ bases w

/-- `dynamic_cast` to class `t` of a pointer to an object of class `k`. -/
def Classes.cast (C : Classes) (k t : Nat) : Bool :=
  k == t || (C.bases k).attach.any fun ⟨b, _⟩ => C.cast b t
termination_by k
decreasing_by exact C.lt _ _ ‹_›

/-- Lines 160-169, also 145-154: `dynamic_handle_extract<t>` of an object of class `k` behind interface
`i`; the message written on failure is not modelled. -/
def Classes.extract (C : Classes) (i t k : Nat) : Res Unit :=
  if C.cast k t then .ok ()
  else
    match C.wrapper t i with
    | some w => if C.cast k w then .ok () else .exn .badCast
    | none => .exn .badCast

/-- Lines 173-180 `dynamic_pointer_extract`: whether the pointer returned is non-null. -/
def Classes.pointerExtract (C : Classes) (i t k : Nat) : Bool :=
  if C.cast k t then true
  else
    match C.wrapper t i with
    | some w => C.cast k w
    | none => false

inductive Op (V : Type) where
  /-- lines 69-75 -/ | create (c : Nat) (v : V)
  /-- line 69 with a null pointer -/ | null
  /-- line 70, from client pointer `p` -/ | fromPtr (p : Nat)
  /-- line 78 -/ | copy (y : Nat)
  /-- line 79 -/ | move (y : Nat)
  /-- line 80 -/ | assign (x y : Nat)
  /-- line 81 -/ | moveAssign (x y : Nat)
  /-- line 68 -/ | destroy (x : Nat)
  /-- lines 88, 92, 96, 99, 102: non-const accessors -/ | ref (x : Nat) (fail : Option Exn)
  /-- lines 84, 86-87, 90-91, 94-95, 98, 101: const accessors -/ | cref (x : Nat)
  /-- line 106 -/ | managed (x : Nat) (fail : Option Exn)
  /-- lines 104-105 -/ | cmanaged (x : Nat)
  /-- the client resets or destroys its pointer -/ | resetPtr (p : Nat)
  /-- lines 160-169, for a class `t` behind interface `i` -/ | extract (i t x : Nat)
  /-- the client changes the object through a non-const reference -/ | writeRef (r : Nat) (v : V)
  /-- the client changes the object through its pointer -/ | writePtr (p : Nat) (v : V)

/-- The value of an object is replaced. -/
def writeObj (o : Nat) (v : V) (s : St V) : Res Unit × St V :=
  match s.objs o with
  | none => (.ub .dangling, s)
  | some (c, _) => (.ok (), { s with objs := upd s.objs o (some (c, v)) })

/-- One operation. -/
def step (C : Classes) : Op V → St V → Res Unit × St V
  | .create c v, s => (.ok (), create c v s)
  | .null, s => (.ok (), { s with hs := s.hs ++ [some none] })
  | .fromPtr p, s =>
    match s.ps[p]? with
    | none => (.ub .notAlive, s)
    | some q => (.ok (), { s with hs := s.hs ++ [some q] })
  | .copy y, s =>
    match s.get y with
    | .ok q => (.ok (), { s with hs := s.hs ++ [some q] })
    | _ => (.ub .notAlive, s)
  | .move y, s =>
    match s.get y with
    | .ok q => (.ok (), { s with hs := s.hs.set y (some none) ++ [some q] })
    | _ => (.ub .notAlive, s)
  | .assign x y, s =>
    match s.get x, s.get y with
    | .ok p, .ok q => (.ok (), St.drop { s with hs := s.hs.set x (some q) } p)
    | _, _ => (.ub .notAlive, s)
  | .moveAssign x y, s =>
    match s.get x, s.get y with
    | .ok p, .ok q =>
      if x = y then (.ok (), s)
      else (.ok (), St.drop { s with hs := (s.hs.set x (some q)).set y (some none) } p)
    | _, _ => (.ub .notAlive, s)
  | .destroy x, s =>
    match s.get x with
    | .ok p => (.ok (), St.drop { s with hs := s.hs.set x none } p)
    | _ => (.ub .notAlive, s)
  | .ref x fail, s =>
    match makeUnique fail x s with
    | (.ok o, s') => (.ok (), { s' with refs := s'.refs ++ [(o, true)] })
    | (.exn e, s') => (.exn e, s')
    | (.ub u, s') => (.ub u, s')
    | (.abort, s') => (.abort, s')
  | .cref x, s =>
    match s.obj x with
    | .ok o => (.ok (), { s with refs := s.refs ++ [(o, false)] })
    | .exn e => (.exn e, s)
    | .ub u => (.ub u, s)
    | .abort => (.abort, s)
  | .managed x fail, s =>
    match makeUnique fail x s with
    | (.ok o, s') => (.ok (), { s' with ps := s'.ps ++ [some o] })
    | (.exn e, s') => (.exn e, s')
    | (.ub u, s') => (.ub u, s')
    | (.abort, s') => (.abort, s')
  | .cmanaged x, s =>
    match s.get x with
    | .ok q => (.ok (), { s with ps := s.ps ++ [q] })
    | _ => (.ub .notAlive, s)
  | .resetPtr p, s =>
    match s.ps[p]? with
    | none => (.ub .notAlive, s)
    | some q => (.ok (), St.drop { s with ps := s.ps.set p none } q)
  | .extract i t x, s =>
    match s.obj x with
    | .ok o =>
      match s.objs o with
      | none => (.ub .dangling, s)
      | some (k, _) =>
        match C.extract i t k with
        | .ok _ => (.ok (), { s with refs := s.refs ++ [(o, true)] })
        | r => (r, s)
    | .exn e => (.exn e, s)
    | .ub u => (.ub u, s)
    | .abort => (.abort, s)
  | .writeRef r v, s =>
    match s.refs[r]? with
    | some (o, true) => writeObj o v s
    | _ => (.ub .notAlive, s)
  | .writePtr p v, s =>
    match s.ps[p]? with
    | some (some o) => writeObj o v s
    | some none => (.ub .nullDeref, s)
    | none => (.ub .notAlive, s)

/-- The value seen through handle `x` by a const accessor. -/
def read (x : Nat) (s : St V) : Res (Nat × V) :=
  match s.obj x with
  | .ok o =>
    match s.objs o with
    | some cv => .ok cv
    | none => .ub .dangling
  | .exn e => .exn e
  | .ub u => .ub u
  | .abort => .abort

/-- A history: exceptions are caught by the caller, undefined behaviour ends it. -/
def run (C : Classes) : List (Op V) → St V → Res Unit × St V
  | [], s => (.ok (), s)
  | o :: os, s =>
    match step C o s with
    | (.ub u, s') => (.ub u, s')
    | (_, s') => run C os s'

def St.init : St V := { objs := fun _ => none, next := 0, hs := [], ps := [], refs := [] }

/-- Lines 129-143 `dynamic_handle_cast` of a handle on an object of class `k` to interface `d`: the object
is shared. The const branch is always taken (line 132 compares with a non-const type), so the result is a
handle on const. -/
def castHandle (C : Classes) (d x : Nat) (s : St V) : Res Unit × St V :=
  match s.obj x with
  | .ok o =>
    match s.objs o with
    | none => (.ub .dangling, s)
    | some (k, _) =>
      if C.cast k d then (.ok (), { s with hs := s.hs ++ [some (some o)] }) else (.exn .badCast, s)
  | .exn e => (.exn e, s)
  | .ub u => (.ub u, s)
  | .abort => (.abort, s)

end Helper.Handle
