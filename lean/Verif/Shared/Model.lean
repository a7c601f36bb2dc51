import Verif.Basic
/-!
# Model of `SharedArray` (array.hpp:223-247)

Variables are numbered in the order of their construction. Buffers and counters are heap blocks with
identities that are never reused. Allocation does not fail in this model (a failing `new T[n]` in a
constructor would leak the counter). `new T[n]` fills the buffer with the value `dflt` (for built-in
types the values are indeterminate).
-/
namespace Helper.Shared

/-- array.hpp:229: the data members. -/
structure Obj where
  cnt : Nat
  size : Nat
  ptr : Nat
deriving DecidableEq, Repr

structure St (V : Type) where
  /-- buffers, by identity -/
  bufs : Nat → Option (List V)
  /-- counters, by identity -/
  cnts : Nat → Option Nat
  /-- next unused identity, for both kinds -/
  next : Nat
  /-- the variables, in the order of construction -/
  vars : List Obj

variable {V : Type}

def upd {α : Type v} (f : Nat → α) (x : Nat) (a : α) : Nat → α := fun y => if y = x then a else f y

inductive Op (V : Type) where
  /-- line 232 -/ | ctor (n : Nat)
  /-- lines 233-234 -/ | ctorFill (n : Nat) (v : V)
  /-- lines 235-236 -/ | ctorList (vs : List V)
  /-- line 237, copy construction from variable `y` -/ | copy (y : Nat)
  /-- lines 238-239, `x = y` -/ | assign (x y : Nat)
  /-- line 241, `x[i] = v` -/ | write (x i : Nat) (v : V)
  /-- line 231 -/ | destroy (x : Nat)

/-- Lines 232-236: a new counter with value 1 and a new buffer that receives the values. -/
def newArray (vs : List V) (s : St V) : St V :=
  { bufs := upd s.bufs s.next (some vs), cnts := upd s.cnts s.next (some 1), next := s.next + 1,
    vars := s.vars ++ [⟨s.next, vs.length, s.next⟩] }

/-- `++*p`, `--*p` for a counter: `size_t` arithmetic. -/
def addCnt (c : Nat) (d : Nat) (s : St V) : Res (St V) :=
  match s.cnts c with
  | none => .ub .dangling
  | some k => .ok { s with cnts := upd s.cnts c (some ((k + d) % 2 ^ 64)) }

/-- Line 239: `if(*_count==0) { delete _count; delete[] _ptr; }`. -/
def release (o : Obj) (s : St V) : Res (St V) :=
  match s.cnts o.cnt with
  | none => .ub .dangling
  | some 0 =>
    match s.bufs o.ptr with
    | none => .ub .dangling
    | some _ => .ok { s with cnts := upd s.cnts o.cnt none, bufs := upd s.bufs o.ptr none }
  | some _ => .ok s

/-- One operation. -/
def op (dflt : V) : Op V → St V → Res (St V)
  | .ctor n, s => .ok (newArray (List.replicate n dflt) s)
  | .ctorFill n v, s => .ok (newArray (List.replicate n v) s)
  | .ctorList vs, s => .ok (newArray vs s)
  | .copy y, s =>
    match s.vars[y]? with
    | none => .ub .notAlive
    | some o =>
      match addCnt o.cnt 1 { s with vars := s.vars ++ [o] } with
      | .ok s => .ok s
      | r => r
  | .assign x y, s =>
    match s.vars[x]?, s.vars[y]? with
    | some ox, some oy =>
      if ox.ptr ≠ oy.ptr then
        match addCnt ox.cnt (2 ^ 64 - 1) s with
        | .ok s1 =>
          match release ox s1 with
          | .ok s2 => addCnt oy.cnt 1 { s2 with vars := s2.vars.set x oy }
          | r => r
        | r => r
      else .ok s
    | _, _ => .ub .notAlive
  | .write x i v, s =>
    match s.vars[x]? with
    | none => .ub .notAlive
    | some o =>
      match s.bufs o.ptr with
      | none => .ub .dangling
      | some l => if i < l.length then .ok { s with bufs := upd s.bufs o.ptr (some (l.set i v)) } else .ub .outOfBounds
  | .destroy x, s =>
    match s.vars[x]? with
    | none => .ub .notAlive
    -- `--_count` moves the pointer in front of the counter, `*_count` reads there
    | some _ => .ub .outOfBounds

/-- `x[i]` (line 242). -/
def read (s : St V) (x i : Nat) : Res V :=
  match s.vars[x]? with
  | none => .ub .notAlive
  | some o =>
    match s.bufs o.ptr with
    | none => .ub .dangling
    | some l =>
      match l[i]? with
      | some v => .ok v
      | none => .ub .outOfBounds

/-- `x.size()` (line 240). -/
def size (s : St V) (x : Nat) : Res Nat :=
  match s.vars[x]? with
  | none => .ub .notAlive
  | some o => .ok o.size

def St.init : St V := ⟨fun _ => none, fun _ => none, 0, []⟩

/-- A history; stops at the first outcome that is not `ok`. -/
def run (dflt : V) : List (Op V) → St V → Res (St V)
  | [], s => .ok s
  | o :: os, s =>
    match op dflt o s with
    | .ok s => run dflt os s
    | r => r

end Helper.Shared
