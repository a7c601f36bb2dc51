import Verif.Basic
/-!
# Model of `include/array.hpp` (`Helper::Array<T>`)

Memory is a heap of blocks of cells; a cell is raw (`none`) or holds a live element. Allocation, the
constructors and the assignment of elements may throw, as told by a list of faults that is consumed
one entry per such event (an empty list means that nothing throws any more). Destructors do not
throw. Access to a freed block, outside a block, or to a raw cell is undefined behaviour.

`sz` is `sizeof(T)` and `dflt` the value of `T()`. An assignment of an element that throws leaves
the element as it was.
-/
namespace Helper.Arr

/-- The data members of an `Array`, array.hpp:219-220. A pointer is the identity of a block (arrays
only ever hold the address of the first cell); `none` is the null pointer. -/
structure Obj where
  size : Nat
  ptr : Option Nat
deriving DecidableEq, Repr

/-- Memory, and the array variables that are alive. `built` and `destroyed` count constructor and
destructor calls of elements; `lost` counts the elements that were alive when their storage was
freed or reused, hence will never be destroyed. -/
structure St (V : Type) where
  blocks : Nat → Option (List (Option V))
  next : Nat
  vars : Nat → Option Obj
  faults : List Bool
  built : Nat
  destroyed : Nat
  lost : Nat

/-- Computations that may throw or be undefined; the state is visible in every case. -/
abbrev M (V : Type) (α : Type) : Type := St V → Res α × St V

variable {V : Type}

namespace M
def pure {α : Type} (a : α) : M V α := fun s => (.ok a, s)
def bind {α β : Type} (m : M V α) (f : α → M V β) : M V β := fun s =>
  match m s with
  | (.ok a, s') => f a s'
  | (.exn e, s') => (.exn e, s')
  | (.ub k, s') => (.ub k, s')
  | (.abort, s') => (.abort, s')
def fail {α : Type} (k : UB) : M V α := fun s => (.ub k, s)
def throw {α : Type} (e : Exn) : M V α := fun s => (.exn e, s)
/-- A read-only step. -/
def look {α : Type} (f : St V → Res α) : M V α := fun s => (f s, s)
end M

infixl:55 " >>> " => M.bind

/-- Function update. -/
def upd {α : Type v} (f : Nat → α) (x : Nat) (a : α) : Nat → α := fun y => if y = x then a else f y

/-- A point where an exception may be thrown. -/
def tick (e : Exn) : M V Unit := fun s =>
  match s.faults with
  | [] => (.ok (), s)
  | false :: t => (.ok (), { s with faults := t })
  | true :: t => (.exn e, { s with faults := t })

/-- array.hpp:55 `uninitialized_new(n)`: `::operator new(n*sizeof(T))`; the product is computed
modulo 2^64, and the block has room for as many cells as fit into that number of bytes. -/
def alloc (sz n : Nat) : M V Nat :=
  tick .badAlloc >>> fun _ s =>
    (.ok s.next, { s with blocks := upd s.blocks s.next (some (List.replicate (n * sz % 2 ^ 64 / sz) none))
                          next := s.next + 1 })

/-- Number of live cells. -/
def live (cells : List (Option V)) : Nat := (cells.filter Option.isSome).length

/-- array.hpp:56 `uninitialized_delete(p)`: `::operator delete(p)`. -/
def free (p : Option Nat) : M V Unit := fun s =>
  match p with
  | none => (.ok (), s)
  | some b =>
    match s.blocks b with
    | none => (.ub .dangling, s)
    | some cells => (.ok (), { s with blocks := upd s.blocks b none, lost := s.lost + live cells })

/-- The cell at `p[i]`. -/
def cell (p : Option Nat) (i : Nat) (s : St V) : Res (Option V) :=
  match p with
  | none => .ub .nullDeref
  | some b =>
    match s.blocks b with
    | none => .ub .dangling
    | some cells =>
      match cells[i]? with
      | none => .ub .outOfBounds
      | some c => .ok c

/-- Stores into the cell `p[i]`, which exists. -/
def store (p : Option Nat) (i : Nat) (c : Option V) (s : St V) : St V :=
  match p with
  | none => s
  | some b =>
    match s.blocks b with
    | none => s
    | some cells => { s with blocks := upd s.blocks b (some (cells.set i c)) }

/-- `new (p+i) T(v)`. -/
def construct (p : Option Nat) (i : Nat) (v : V) : M V Unit := fun s =>
  match cell p i s with
  | .ok c => (tick (.user 0) >>> fun _ s =>
      (.ok (), { store p i (some v) s with built := s.built + 1, lost := s.lost + (if c.isSome then 1 else 0) })) s
  | .ub k => (.ub k, s)
  | .exn e => (.exn e, s)
  | .abort => (.abort, s)

/-- `(p+i)->~T()`. -/
def destroyCell (p : Option Nat) (i : Nat) : M V Unit := fun s =>
  match cell p i s with
  | .ok (some _) => (.ok (), { store p i none s with destroyed := s.destroyed + 1 })
  | .ok none => (.ub .notAlive, s)
  | .ub k => (.ub k, s)
  | .exn e => (.exn e, s)
  | .abort => (.abort, s)

/-- Reading `p[i]`. -/
def readCell (p : Option Nat) (i : Nat) : M V V := M.look fun s =>
  match cell p i s with
  | .ok (some v) => .ok v
  | .ok none => .ub .notAlive
  | .ub k => .ub k
  | .exn e => .exn e
  | .abort => .abort

/-- `p[i] = v`. -/
def assignCell (p : Option Nat) (i : Nat) (v : V) : M V Unit := fun s =>
  match cell p i s with
  | .ok (some _) => (tick (.user 1) >>> fun _ s => (.ok (), store p i (some v) s)) s
  | .ok none => (.ub .notAlive, s)
  | .ub k => (.ub k, s)
  | .exn e => (.exn e, s)
  | .abort => (.abort, s)

/-- The construction loops (lines 81, 148, 154, 158, 208-217): `new (p+i) T(src(i))` for `n`
indices from `i` on; `src i` is evaluated in the state at that moment. -/
def constructLoop (p : Option Nat) (src : Nat → M V V) : Nat → Nat → M V Unit
  | 0, _ => M.pure ()
  | n + 1, i => src i >>> fun v => construct p i v >>> fun _ => constructLoop p src n (i + 1)

/-- array.hpp:207 `_destroy_elements`: from the last element to the first. -/
def destroyLoop (p : Option Nat) : Nat → M V Unit
  | 0 => M.pure ()
  | n + 1 => destroyCell p n >>> fun _ => destroyLoop p n

/-- array.hpp:199, 202, the loops of `fill`. -/
def assignLoop (p : Option Nat) (src : Nat → M V V) : Nat → Nat → M V Unit
  | 0, _ => M.pure ()
  | n + 1, i => src i >>> fun v => assignCell p i v >>> fun _ => assignLoop p src n (i + 1)

/-- The object of a live array variable. -/
def getObj (x : Nat) : M V Obj := M.look fun s =>
  match s.vars x with
  | some o => .ok o
  | none => .ub .notAlive

/-- Changes the data members of an array variable (also used to begin its lifetime). -/
def setObj (x : Nat) (o : Obj) : M V Unit := fun s => (.ok (), { s with vars := upd s.vars x (some o) })

/-- A `const T&` argument: an object outside all arrays, or element `i` of the array `y`. -/
inductive Arg (V : Type) where
  | ext (v : V)
  | elem (y i : Nat)
deriving Repr

/-- Binding the reference: from now on it denotes a value or a cell. -/
def bindArg : Arg V → M V (Sum V (Option Nat × Nat))
  | .ext v => M.pure (.inl v)
  | .elem y i => getObj y >>> fun o => M.pure (.inr (o.ptr, i))

/-- Reading through a bound reference. -/
def readArg : Sum V (Option Nat × Nat) → M V V
  | .inl v => M.pure v
  | .inr (p, i) => readCell p i

/-- A sequence argument given by iterators: outside all arrays, or the elements of the array `y`
from index `i` to index `j`. -/
inductive Src (V : Type) where
  | ext (vs : List V)
  | range (y i j : Nat)
deriving Repr

/-- `std::distance(first,last)`. -/
def Src.dist : Src V → Int
  | .ext vs => vs.length
  | .range _ i j => (j : Int) - i

/-- Binding the iterators. -/
def bindSrc : Src V → M V (Sum (List V) (Option Nat × Nat))
  | .ext vs => M.pure (.inl vs)
  | .range y i _ => getObj y >>> fun o => M.pure (.inr (o.ptr, i))

/-- `*(first+k)`. -/
def readSrc : Sum (List V) (Option Nat × Nat) → Nat → M V V
  | .inl vs, k => M.look fun _ => match vs[k]? with
    | some v => .ok v
    | none => .ub .outOfBounds
  | .inr (p, i), k => readCell p (i + k)

/-- Common part of the constructors: `_size(n), _ptr(uninitialized_new(n))`, then the loop. If the
loop throws, the array does not come to life and nothing is released. -/
def build (sz n : Nat) (src : Nat → M V V) (x : Nat) : M V Unit :=
  alloc sz n >>> fun b => constructLoop (some b) src n 0 >>> fun _ => setObj x ⟨n, some b⟩

/-- The operations of a client program; `x`, `y` name array variables. -/
inductive Op (V : Type) where
  /-- line 79 -/ | ctorDefault (x : Nat)
  /-- line 81 -/ | ctorSize (x n : Nat)
  /-- line 85 -/ | ctorFill (x n : Nat) (a : Arg V)
  /-- lines 88-89 (initializer list), 100-104 (iterators) -/ | ctorRange (x : Nat) (r : Src V)
  /-- lines 95-97 -/ | ctorGen (x n : Nat) (g : Nat → V)
  /-- lines 123-124; the conversion constructors 107-120 have the same code -/ | ctorCopy (x y : Nat)
  /-- lines 126-127 -/ | ctorMove (x y : Nat)
  /-- lines 129-132 -/ | assignCopy (x y : Nat)
  /-- lines 134-135 -/ | assignMove (x y : Nat)
  /-- lines 144-149 -/ | resize (x n : Nat)
  /-- lines 151-155 -/ | resizeVal (x n : Nat) (a : Arg V)
  /-- lines 157-158 -/ | reallocate (x n : Nat)
  /-- line 160 -/ | swap (x y : Nat)
  /-- `x[i] = v`, line 163 -/ | write (x i : Nat) (v : V)
  /-- lines 198-199 -/ | fill (x : Nat) (a : Arg V)
  /-- lines 201-202 -/ | fillFrom (x : Nat) (r : Src V)
  /-- lines 204-205 -/ | assign (x : Nat) (r : Src V)
  /-- line 76 -/ | destroy (x : Nat)

/-- array.hpp:144-149 and 151-155 `resize`; `dv` is `T()` or the reference `t`. -/
def resizeWith (sz : Nat) (dv : M V V) (x n : Nat) : M V Unit :=
  getObj x >>> fun o =>
    if o.size ≠ n then
      alloc sz n >>> fun b =>
      constructLoop (some b) (fun i => if i < o.size then readCell o.ptr i else dv) n 0 >>> fun _ =>
      destroyLoop o.ptr o.size >>> fun _ => free o.ptr >>> fun _ => setObj x ⟨n, some b⟩
    else M.pure ()

/-- array.hpp:201-202 `fill(first)`. -/
def fillWith (x : Nat) (src : Nat → M V V) : M V Unit :=
  getObj x >>> fun o => assignLoop o.ptr src o.size 0

/-- One operation. -/
def op (sz : Nat) (dflt : V) : Op V → M V Unit
  | .ctorDefault x => setObj x ⟨0, none⟩
  | .ctorSize x n => build sz n (fun _ => M.pure dflt) x
  | .ctorFill x n a => bindArg a >>> fun r => build sz n (fun _ => readArg r) x
  | .ctorRange x r => bindSrc r >>> fun q =>
      -- `_size` is the distance converted to size_t; the assertion comes after the allocation
      if r.dist < 0 then alloc sz (2 ^ 64 + r.dist).toNat >>> fun _ => fun s => (.abort, s)
      else build sz r.dist.toNat (readSrc q) x
  | .ctorGen x n g => build sz n (fun i => M.pure (g i)) x
  | .ctorCopy x y => getObj y >>> fun o => build sz o.size (fun i => readCell o.ptr i) x
  | .ctorMove x y => getObj y >>> fun o => setObj x o >>> fun _ => setObj y ⟨0, none⟩
  | .assignCopy x y => getObj x >>> fun ox => getObj y >>> fun oy =>
      if ox.size = oy.size then assignLoop ox.ptr (fun i => readCell oy.ptr i) ox.size 0
      else
        destroyLoop ox.ptr ox.size >>> fun _ => free ox.ptr >>> fun _ =>
        setObj x ⟨oy.size, ox.ptr⟩ >>> fun _ =>
        alloc sz oy.size >>> fun b => setObj x ⟨oy.size, some b⟩ >>> fun _ =>
        constructLoop (some b) (fun i => readCell oy.ptr i) oy.size 0
  | .assignMove x y => getObj x >>> fun _ => getObj y >>> fun oy =>
      if x ≠ y then setObj x oy >>> fun _ => setObj y ⟨0, none⟩ else M.pure ()
  | .resize x n => resizeWith sz (M.pure dflt) x n
  | .resizeVal x n a => bindArg a >>> fun r => resizeWith sz (readArg r) x n
  | .reallocate x n => getObj x >>> fun o =>
      if o.size ≠ n then
        destroyLoop o.ptr o.size >>> fun _ => free o.ptr >>> fun _ =>
        setObj x ⟨n, o.ptr⟩ >>> fun _ =>
        alloc sz n >>> fun b => setObj x ⟨n, some b⟩ >>> fun _ =>
        constructLoop (some b) (fun _ => M.pure dflt) n 0
      else M.pure ()
  | .swap x y => getObj x >>> fun ox => getObj y >>> fun oy => setObj x oy >>> fun _ => setObj y ox
  | .write x i v => getObj x >>> fun o => assignCell o.ptr i v
  | .fill x a => bindArg a >>> fun r => fillWith x (fun _ => readArg r)
  | .fillFrom x r => bindSrc r >>> fun q => fillWith x (readSrc q)
  | .assign x r => bindSrc r >>> fun q =>
      resizeWith sz (M.pure dflt) x (r.dist % 2 ^ 64).toNat >>> fun _ => fillWith x (readSrc q)
  | .destroy x => getObj x >>> fun o => destroyLoop o.ptr o.size >>> fun _ => free o.ptr >>> fun _ =>
      fun s => (.ok (), { s with vars := upd s.vars x none })

/-- No memory allocated, no array alive; the given faults are to come. -/
def St.init (faults : List Bool) : St V := ⟨fun _ => none, 0, fun _ => none, faults, 0, 0, 0⟩

/-- A program: the outcomes so far (newest first) and the final state. A thrown exception is caught
by the client, which goes on; undefined behaviour and `abort()` end the program. -/
def run (sz : Nat) (dflt : V) : List (Op V) → St V → List (Res Unit) × St V
  | [], s => ([], s)
  | o :: t, s =>
    match op sz dflt o s with
    | (.ok u, s') => let r := run sz dflt t s'; (.ok u :: r.1, r.2)
    | (.exn e, s') => let r := run sz dflt t s'; (.exn e :: r.1, r.2)
    | (.ub k, s') => ([.ub k], s')
    | (.abort, s') => ([.abort], s')

/-- array.hpp:140 `size()`, 138 `empty()`. -/
def size (x : Nat) : M V Nat := getObj x >>> fun o => M.pure o.size
def isEmpty (x : Nat) : M V Bool := getObj x >>> fun o => M.pure (o.size == 0)

/-- array.hpp:163, 165 `operator[]` (reading). -/
def index (x i : Nat) : M V V := getObj x >>> fun o => readCell o.ptr i

/-- array.hpp:167, 169 `at` (reading). -/
def atRead (x i : Nat) : M V V := getObj x >>> fun o =>
  if i < o.size then readCell o.ptr i else M.throw .outOfRange

/-- array.hpp:167 `at` (writing). -/
def atWrite (x i : Nat) (v : V) : M V Unit := getObj x >>> fun o =>
  if i < o.size then assignCell o.ptr i v else M.throw .outOfRange

/-- array.hpp:172-174 `front`. -/
def front (x : Nat) : M V V := getObj x >>> fun o => readCell o.ptr 0

/-- array.hpp:176-178 `back`; `_size-1` wraps around for the empty array. -/
def back (x : Nat) : M V V := getObj x >>> fun o => readCell o.ptr ((o.size + (2 ^ 64 - 1)) % 2 ^ 64)

/-- array.hpp:192-193, the loop of `operator==`; `ne` is `!=` of the elements. -/
def eqLoop (ne : V → V → Bool) (p q : Option Nat) : Nat → Nat → M V Bool
  | 0, _ => M.pure true
  | n + 1, i => readCell p i >>> fun a => readCell q i >>> fun b =>
      if ne a b then M.pure false else eqLoop ne p q n (i + 1)

/-- array.hpp:190-193 `operator==`. -/
def eq (ne : V → V → Bool) (x y : Nat) : M V Bool := getObj x >>> fun ox => getObj y >>> fun oy =>
  if ox.size ≠ oy.size then M.pure false else eqLoop ne ox.ptr oy.ptr ox.size 0

/-- array.hpp:195 `operator!=`. -/
def neq (ne : V → V → Bool) (x y : Nat) : M V Bool := eq ne x y >>> fun b => M.pure (!b)

end Helper.Arr
