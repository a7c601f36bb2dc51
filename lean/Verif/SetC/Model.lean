import Verif.Basic
import Verif.StdOrd.Set
/-!
# Model of `Set` and the free set functions (container.hpp:161-236, 303-315, 318-327)

A set is the list of its elements in iteration order, a vector is a list. Where a function takes a
`const std::set&` while it changes a set, the argument may be the changed set itself; it is then read
in its current state.

Not modelled: `apply` on sets (lines 206-208), which does not compile (`adjoin` takes a set, the result
of `f` is an element), allocation failure, and comparators that throw.
-/
namespace Helper.SetC

variable {α : Type u} [Cmp α]

/-- A `const std::set<T>&` argument: another set, or the set that is being changed. -/
inductive Arg (α : Type u) where
  | other (s : List α)
  | self
deriving Repr

/-- What the argument holds while the changed set holds `cur`. -/
def Arg.now : Arg α → List α → List α
  | .other s, _ => s
  | .self, cur => cur

/-- container.hpp:166-174: constructors from initializer lists, vectors and sets; 327 `make_set`. -/
def ofList (l : List α) : List α := OSet.ofList l

/-- container.hpp:175 `operator List<T>`, 325 `make_list(Set)`. -/
def toList (s : List α) : List α := s

/-- container.hpp:176-177 `contains`, 211-212 `contains(s,t)`. -/
def contains (s : List α) (t : α) : Bool := (OSet.find t s).isSome

/-- container.hpp:178-180 `subset`: the loop over the argument. -/
def subsetM (s : List α) : List α → Bool
  | [] => true
  | x :: r => if !contains s x then false else subsetM s r

/-- container.hpp:181-183 `disjoint(set)`, 184-186 `disjoint(vector)`. -/
def disjointM (s : List α) : List α → Bool
  | [] => true
  | x :: r => if contains s x then false else disjointM s r

/-- container.hpp:187-188 `adjoin`: `i` is the position of the iterator in the argument, which is read
in its current state. The fuel bounds the passes; `none` when it is used up. -/
def adjoinLoop (arg : Arg α) : Nat → Nat → List α → Option (List α)
  | 0, _, _ => none
  | fuel + 1, i, cur =>
    match (arg.now cur)[i]? with
    | none => some cur
    | some x => adjoinLoop arg fuel (i + 1) (OSet.insert x cur)

/-- container.hpp:189-192 `remove(t)`: erases the element found. -/
def removeElem (s : List α) (t : α) : List α :=
  match s.findIdx? (fun x => Cmp.equiv x t) with
  | some i => s.eraseIdx i
  | none => s

/-- container.hpp:193-200 `remove(set)` and `restrict`, 229-236 free `remove` and `restrict`: `i` is the
position of the iterator; `p` is the test of the element against the argument. Erasing the element at
the iterator leaves the iterator at the next element. -/
def sweepLoop (p : List α → α → Bool) (arg : Arg α) : Nat → Nat → List α → Option (List α)
  | 0, _, _ => none
  | fuel + 1, i, cur =>
    match cur[i]? with
    | none => some cur
    | some x => if p (arg.now cur) x then sweepLoop p arg fuel i (cur.eraseIdx i)
                else sweepLoop p arg fuel (i + 1) cur

/-- container.hpp:193-196 `Set::remove(set)`: `s.find(*iter)!=s.end()`. -/
def remove (fuel : Nat) (s : List α) (a : Arg α) : Option (List α) :=
  sweepLoop (fun s x => (OSet.find x s).isSome) a fuel 0 s

/-- container.hpp:197-200 `Set::restrict(set)`: the same code as `remove`. -/
def restrict (fuel : Nat) (s : List α) (a : Arg α) : Option (List α) :=
  sweepLoop (fun s x => (OSet.find x s).isSome) a fuel 0 s

/-- container.hpp:201-204 `remove(vector)`. -/
def removeList (s : List α) : List α → List α
  | [] => s
  | x :: r => removeList (OSet.erase x s) r

/-- container.hpp:187-188 `adjoin`. -/
def adjoin (fuel : Nat) (s : List α) (a : Arg α) : Option (List α) := adjoinLoop a fuel 0 s

/-- container.hpp:209-210 `join`: the first argument is a copy. -/
def join (fuel : Nat) (s1 s2 : List α) : Option (List α) := adjoin fuel s1 (.other s2)

/-- container.hpp:213-215 free `subset`. -/
def subset : List α → List α → Bool
  | [], _ => true
  | x :: r, s2 => if !contains s2 x then false else subset r s2

/-- container.hpp:216-218 free `disjoint(set,set)`. -/
def disjoint : List α → List α → Bool
  | [], _ => true
  | x :: r, s2 => if contains s2 x then false else disjoint r s2

/-- container.hpp:219-221 free `disjoint(set,vector)`. -/
def disjointList (s1 : List α) : List α → Bool
  | [] => true
  | x :: r => if contains s1 x then false else disjointList s1 r

/-- container.hpp:229-232 free `remove`. -/
def removeF (fuel : Nat) (s : List α) (a : Arg α) : Option (List α) :=
  sweepLoop (fun s x => contains s x) a fuel 0 s

/-- container.hpp:233-236 free `restrict`. -/
def restrictF (fuel : Nat) (s : List α) (a : Arg α) : Option (List α) :=
  sweepLoop (fun s x => !contains s x) a fuel 0 s

/-- container.hpp:222-223 `intersection(set,set)`: `restrict` is the free function. -/
def intersection (fuel : Nat) (s1 s2 : List α) : Option (List α) :=
  restrictF fuel (OSet.ofList s1) (.other s2)

/-- container.hpp:224-226 `intersection(set,vector)`: the loop. -/
def intersectionLoop (s1 : List α) : List α → List α → List α
  | [], r => r
  | x :: l, r => intersectionLoop s1 l (if contains s1 x then OSet.insert x r else r)

def intersectionList (s1 l2 : List α) : List α := intersectionLoop s1 l2 []

/-- container.hpp:227-228 `difference`. -/
def difference (fuel : Nat) (s1 s2 : List α) : Option (List α) :=
  removeF fuel (OSet.ofList s1) (.other s2)

/-- container.hpp:303-308 `unique_elements`: the loop. -/
def uniqueLoop : List α → List α → Bool
  | [], _ => true
  | x :: l, found => if contains found x then false else uniqueLoop l (OSet.insert x found)

def uniqueElements (l : List α) : Bool := uniqueLoop l []

/-- container.hpp:310-315 `duplicate_elements`: the loop. -/
def duplicateLoop : List α → List α → List α → List α
  | [], result, _ => result
  | x :: l, result, found =>
    if contains found x then duplicateLoop l (OSet.insert x result) found
    else duplicateLoop l result (OSet.insert x found)

def duplicateElements (l : List α) : List α := duplicateLoop l [] []

end Helper.SetC
