import Verif.LRU.Memo
/-!
# The memoising client in threads, with a lock for every call

`if (not cache.has_label(x)) cache.put(x,f(x)); return cache.get(x);` in several threads, where each of the calls `has_label` (lru_cache.hpp:56), `put`
(lines 80-93) and `get` (lines 60-69) is made under a lock, but not all three under the same one.
-/
namespace Helper.LRU.Idiom

variable {L : Type u} {V : Type v} [Cmp L]

/-- Where a thread is: before `has_label`, before `put`, before `get`. -/
inductive PC (L : Type u) (V : Type v) where
  | idle
  | put (x : L) (v : V)
  | get (x : L)

/-- A thread: the labels it has still to access, where it is, and what its accesses have given. -/
structure Client (L : Type u) (V : Type v) where
  todo : List L
  pc : PC L V
  results : List (L × Res (Out V))

/-- The cache and the threads. -/
structure World (L : Type u) (V : Type v) where
  c : Cache L V
  ts : Nat → Client L V

/-- Thread `j` becomes `t`. -/
def World.set (w : World L V) (j : Nat) (t : Client L V) : World L V := { w with ts := fun i => if i = j then t else w.ts i }

/-- Thread `j` makes its next call (and, after a `has_label` that returns false, computes the value, which needs no lock). -/
def step (f : L → Except Exn V) (j : Nat) (w : World L V) : World L V :=
  let t := w.ts j
  match t.pc with
  | .idle =>
    match t.todo with
    | [] => w
    | x :: rest =>
      if hasLabel w.c x then w.set j ⟨rest, .get x, t.results⟩
      else
        match f x with
        | .error e => w.set j ⟨rest, .idle, t.results ++ [(x, .exn e)]⟩
        | .ok v => w.set j ⟨rest, .put x v, t.results⟩
  | .put x v =>
    match call w.c (.put x v) with
    | (.ok _, c) => World.set { w with c := c } j ⟨t.todo, .get x, t.results⟩
    | (.exn e, c) => World.set { w with c := c } j ⟨t.todo, .idle, t.results ++ [(x, .exn e)]⟩
    | (.ub k, c) => World.set { w with c := c } j ⟨t.todo, .idle, t.results ++ [(x, .ub k)]⟩
    | (.abort, c) => World.set { w with c := c } j ⟨t.todo, .idle, t.results ++ [(x, .abort)]⟩
  | .get x =>
    let r := call w.c (.get x)
    World.set { w with c := r.2 } j ⟨t.todo, .idle, t.results ++ [(x, r.1)]⟩

/-- A schedule: the threads that make the calls. -/
def runs (f : L → Except Exn V) : List Nat → World L V → World L V
  | [], w => w
  | j :: l, w => runs f l (step f j w)

/-- At the beginning the cache is empty and thread `j` has to access the labels `qs j`. -/
def start (n : Nat) (qs : Nat → List L) : World L V := ⟨empty n, fun j => ⟨qs j, .idle, []⟩⟩

end Helper.LRU.Idiom
