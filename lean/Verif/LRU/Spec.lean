import Verif.LRU.Model
/-!
# Specification of an LRU cache

Two independent specifications, neither of which mentions ages, nodes or the map:

* `Spec`: an automaton over the recency list (most recently used first);
* functions of the trace of calls: when a label was last used, what was last put for it, which
  distinct labels were used since.
-/
namespace Helper.LRU

variable {L : Type u} {V : Type v} [Cmp L]

/-- The abstract cache: capacity and contents, most recently used first. -/
structure Spec (L : Type u) (V : Type v) where
  cap : Nat
  items : List (L × V)

namespace Spec

/-- Is there an item with this label? -/
def has (s : Spec L V) (l : L) : Bool := s.items.any (fun p => Cmp.equiv p.1 l)

/-- One call on the abstract cache. -/
def call (s : Spec L V) : Call L V → Res (Out V) × Spec L V
  | .hasLabel l => (.ok (.bool (s.has l)), s)
  | .get l =>
    match s.items.find? (fun p => Cmp.equiv p.1 l) with
    | none => (.exn .runtimeError, s)
    | some p => (.ok (.val p.2),
        { s with items := p :: s.items.filter (fun q => !Cmp.equiv q.1 l) })
  | .age l =>
    match s.items.findIdx? (fun p => Cmp.equiv p.1 l) with
    | none => (.exn .runtimeError, s)
    | some i => (.ok (.num i), s)
  | .put l v =>
    if s.has l then (.exn .runtimeError, s)
    else (.ok .unit, { s with items := (l, v) :: s.items.take (s.cap - 1) })
  | .currentSize => (.ok (.num s.items.length), s)
  | .maximumSize => (.ok (.num s.cap), s)

/-- Calls one after the other; trace newest first. -/
def run (s : Spec L V) (calls : List (Call L V)) : List (Event L V) × Spec L V :=
  calls.foldl (fun s cl => let r := call s.2 cl; ((cl, r.1) :: s.1, r.2)) ([], s)

end Spec

/-! ## Functions of the trace (newest event first) -/

/-- The label used by an event: a successful `get` or `put` uses its label. -/
def usedLabel : Event L V → Option L
  | (.get l, .ok _) => some l
  | (.put l _, .ok _) => some l
  | _ => none

/-- The time (counted from 1) of the last use of `l`; 0 if it was never used. -/
def lastUse : List (Event L V) → L → Nat
  | [], _ => 0
  | ev :: older, l =>
    match usedLabel ev with
    | some k => if Cmp.equiv k l then older.length + 1 else lastUse older l
    | none => lastUse older l

/-- The value given to the last successful `put` of `l`. -/
def lastPut : List (Event L V) → L → Option V
  | [], _ => none
  | (.put k v, .ok _) :: older, l => if Cmp.equiv k l then some v else lastPut older l
  | _ :: older, l => lastPut older l

/-- The distinct labels used since the last use of `l`. -/
def distinctSince : List (Event L V) → L → List L
  | [], _ => []
  | ev :: older, l =>
    match usedLabel ev with
    | some k =>
      if Cmp.equiv k l then []
      else
        let r := distinctSince older l
        if r.any (fun x => Cmp.equiv x k) then r else k :: r
    | none => distinctSince older l

/-- The number of successful `put`s. -/
def putCount : List (Event L V) → Nat
  | [] => 0
  | (.put _ _, .ok _) :: older => putCount older + 1
  | _ :: older => putCount older

/-- `P` lists the labels present in the cache, each class once. -/
def Lists (c : Cache L V) (P : List L) : Prop :=
  P.Pairwise (fun a b => Cmp.equiv a b = false) ∧
  ∀ x, hasLabel c x = true ↔ ∃ p ∈ P, Cmp.equiv p x = true

/-- `l` stays in the cache during the calls `more` made from `c`. -/
def StaysPresent (c : Cache L V) (l : L) (more : List (Call L V)) : Prop :=
  ∀ k, hasLabel (run c (more.take k)).2 l = true

end Helper.LRU
