import Verif.Basic
import Verif.StdOrd.Map
/-!
# Model of `include/lru_cache.hpp` (`Helper::LRUCache<L,V>`)

`size_t` ages are natural numbers; `Props.lean` proves that they never exceed `maximum_size`, so
`age++` cannot wrap. Every element of the underlying `std::map` carries the identity of its node
(`node`), which models the address of the element: references returned by `get` are node
identities, and node identities are never reused.
-/
namespace Helper.LRU

variable {L : Type u} {V : Type v} [Cmp L]

/-- lru_cache.hpp:46-50 `struct AgeValuePair`, plus the identity of the map node holding it. -/
structure Entry (V : Type v) where
  age : Nat
  value : V
  node : Nat

/-- lru_cache.hpp:105-107: the data members. `nextNode` is the identity of the next map node that
will be allocated (not a data member of the class). -/
structure Cache (L : Type u) (V : Type v) where
  maximumSize : Nat
  elements : List (L × Entry V)
  nextNode : Nat

/-- lru_cache.hpp:53, the constructor with its `HELPER_PRECONDITION(maximum_size>0)`. -/
def construct (n : Nat) : Res (Cache L V) :=
  if n > 0 then .ok ⟨n, [], 0⟩ else .exn .runtimeError

/-- lru_cache.hpp:56 `has_label`. -/
def hasLabel (c : Cache L V) (l : L) : Bool := (OMap.find l c.elements).isSome

/-- lru_cache.hpp:63-66, the loop of `get`: every element younger than `a` gets older by one. The
C++ loop re-reads `e->second.age`; the loop does not change it (`age < age` is false), so it is
the constant `a` here. -/
def bumpYounger (a : Nat) (es : List (L × Entry V)) : List (L × Entry V) :=
  es.map fun e => if e.2.age < a then (e.1, { e.2 with age := e.2.age + 1 }) else e

/-- lru_cache.hpp:67 `e->second.age = 0` where `e` is the iterator to node `n`. -/
def resetAge (n : Nat) (es : List (L × Entry V)) : List (L × Entry V) :=
  es.map fun e => if e.2.node = n then (e.1, { e.2 with age := 0 }) else e

/-- lru_cache.hpp:60-69 `get`. Returns the value and the reference (node identity) to it. -/
def get (c : Cache L V) (l : L) : Res (V × Nat) × Cache L V :=
  match OMap.find l c.elements with
  | none => (.exn .runtimeError, c)
  | some e => (.ok (e.2.value, e.2.node),
      { c with elements := resetAge e.2.node (bumpYounger e.2.age c.elements) })

/-- lru_cache.hpp:72-76 `age`. -/
def age (c : Cache L V) (l : L) : Res Nat :=
  match OMap.find l c.elements with
  | none => .exn .runtimeError
  | some e => .ok e.2.age

/-- lru_cache.hpp:83, `for (auto& other : _elements) other.second.age++`. -/
def incrementAll (es : List (L × Entry V)) : List (L × Entry V) :=
  es.map fun e => (e.1, { e.2 with age := e.2.age + 1 })

/-- lru_cache.hpp:85-89, the loop over a full cache: remembers (the last) element whose age is
`_maximum_size-1` and increments all ages. `r` is `to_remove` so far, `none` being `end()`. -/
def scan (maxSize : Nat) : List (L × Entry V) → Option Nat → Option Nat × List (L × Entry V)
  | [], r => (r, [])
  | (l, e) :: t, r =>
    let r' := if e.age = maxSize - 1 then some e.node else r
    let rest := scan maxSize t r'
    (rest.1, (l, { e with age := e.age + 1 }) :: rest.2)

/-- lru_cache.hpp:90 `_elements.erase(to_remove)`; erasing `end()` is undefined behaviour. -/
def eraseNode (es : List (L × Entry V)) : Option Nat → Res (List (L × Entry V))
  | none => .ub .eraseEnd
  | some n => .ok (es.filter fun e => e.2.node ≠ n)

/-- lru_cache.hpp:82-91: the part of `put` before the insertion. -/
def makeRoom (c : Cache L V) : Res (List (L × Entry V)) :=
  if c.elements.length < c.maximumSize then .ok (incrementAll c.elements)
  else
    let s := scan c.maximumSize c.elements none
    eraseNode s.2 s.1

/-- The argument `V const& val` of `put`: a reference to an object outside the cache, or to the
value stored in a node of this cache (as returned by `get`). -/
inductive Arg (V : Type v) where
  | ext (v : V)
  | ref (node : Nat)

/-- Reading through the reference `val`: reading from an erased node is undefined behaviour. -/
def Arg.read (es : List (L × Entry V)) : Arg V → Res V
  | .ext v => .ok v
  | .ref n =>
    match es.find? (fun e => e.2.node = n) with
    | some e => .ok e.2.value
    | none => .ub .dangling

/-- lru_cache.hpp:80-93 `put`. `fault = some e` means that line 92
`_elements.insert({label,AgeValuePair(0,val)})` throws `e` (copy of the value or of the label, or
allocation of the node); a `std::map` insertion that throws has no effect on the map. -/
def put (c : Cache L V) (l : L) (arg : Arg V) (fault : Option Exn) : Res Unit × Cache L V :=
  if hasLabel c l then (.exn .runtimeError, c)
  else
    match makeRoom c with
    | .ok es =>
      match arg.read es with
      | .ok v =>
        match fault with
        | none => (.ok (), { c with
            elements := OMap.insert l ⟨0, v, c.nextNode⟩ es, nextNode := c.nextNode + 1 })
        | some e => (.exn e, { c with elements := es })
      | .ub k => (.ub k, { c with elements := es })
      | .exn e => (.exn e, { c with elements := es })
      | .abort => (.abort, { c with elements := es })
    | .ub k => (.ub k, c)
    | .exn e => (.exn e, c)
    | .abort => (.abort, c)

/-- lru_cache.hpp:96-98 `current_size`. -/
def currentSize (c : Cache L V) : Nat := c.elements.length

/-- Reading through a reference obtained earlier from `get`. -/
def readRef (c : Cache L V) (node : Nat) : Res V := Arg.read c.elements (.ref node)

/-- The public calls of the class; `lru_cache.hpp:101-103` is `maximum_size`. -/
inductive Call (L : Type u) (V : Type v) where
  | hasLabel (l : L)
  | get (l : L)
  | age (l : L)
  | put (l : L) (v : V)
  | currentSize
  | maximumSize

/-- What a call returns. -/
inductive Out (V : Type v) where
  | bool (b : Bool)
  | val (v : V)
  | num (n : Nat)
  | unit
deriving DecidableEq

/-- One public call (values are passed from outside the cache and nothing throws in copies). -/
def call (c : Cache L V) : Call L V → Res (Out V) × Cache L V
  | .hasLabel l => (.ok (.bool (hasLabel c l)), c)
  | .get l =>
    match get c l with
    | (.ok v, c') => (.ok (.val v.1), c')
    | (.exn e, c') => (.exn e, c')
    | (.ub k, c') => (.ub k, c')
    | (.abort, c') => (.abort, c')
  | .age l =>
    match age c l with
    | .ok n => (.ok (.num n), c)
    | .exn e => (.exn e, c)
    | .ub k => (.ub k, c)
    | .abort => (.abort, c)
  | .put l v =>
    match put c l (.ext v) none with
    | (.ok _, c') => (.ok .unit, c')
    | (.exn e, c') => (.exn e, c')
    | (.ub k, c') => (.ub k, c')
    | (.abort, c') => (.abort, c')
  | .currentSize => (.ok (.num (currentSize c)), c)
  | .maximumSize => (.ok (.num c.maximumSize), c)

/-- A finished call together with what it returned. -/
abbrev Event (L : Type u) (V : Type v) := Call L V × Res (Out V)

/-- A client program: makes the calls one after the other from cache `c`. Returns the trace, newest
event first, and the final cache. -/
def run (c : Cache L V) (calls : List (Call L V)) : List (Event L V) × Cache L V :=
  calls.foldl (fun s cl => let r := call s.2 cl; ((cl, r.1) :: s.1, r.2)) ([], c)

/-- A freshly constructed cache with maximum size `n` (for `n > 0`). -/
def empty (n : Nat) : Cache L V := ⟨n, [], 0⟩

end Helper.LRU
