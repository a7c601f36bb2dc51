/-!
# Model of `make_lpair`, `make_ltuple` and the component selectors (tuple.hpp:41-54)

Variables are numbers (locations) in a store. `std::pair` and `std::tuple` are taken as specified by the standard:
assignment to a pair of references assigns the first component, then the second; assignment to a tuple of references
assigns all components in an order `ord` that is unspecified. Components are assigned as values (conversions between types and
user-defined assignments that throw are not modelled). Sizes that do not match make the program
ill-formed: `none`.
-/
namespace Helper.TupleC

variable {V : Type}

abbrev Store (V : Type) := Nat → V

def upd (s : Store V) (x : Nat) (v : V) : Store V := fun y => if y = x then v else s y

/-- Line 43 `make_lpair`. -/
def makeLpair (t1 t2 : Nat) : Nat × Nat := (t1, t2)

/-- Line 47 `make_ltuple`. -/
def makeLtuple (ts : List Nat) : List Nat := ts

/-- Line 42: `std::make_pair` copies the values of its arguments. -/
def makePair (e1 e2 : Store V → V) (s : Store V) : V × V := (e1 s, e2 s)

/-- Line 46: `std::make_tuple` copies the values of its arguments. -/
def makeTuple (es : List (Store V → V)) (s : Store V) : List V := es.map (· s)

/-- `std::pair<T1&,T2&>::operator=` from a pair of values. -/
def assignPair (p : Nat × Nat) (q : V × V) (s : Store V) : Store V := upd (upd s p.1 q.1) p.2 q.2

/-- `std::pair<T1&,T2&>::operator=` from a pair of references. -/
def assignPairRefs (p q : Nat × Nat) (s : Store V) : Store V :=
  let s1 := upd s p.1 (s q.1)
  upd s1 p.2 (s1 q.2)

/-- Assignment of component `i`. -/
def assignComp (refs : List Nat) (vals : List V) (s : Store V) (i : Nat) : Store V :=
  match refs[i]?, vals[i]? with
  | some r, some v => upd s r v
  | _, _ => s

/-- `std::tuple<TS&...>::operator=` from a tuple of values. -/
def assignTuple (ord : List Nat) (refs : List Nat) (vals : List V) (s : Store V) : Option (Store V) :=
  if refs.length = vals.length then some (ord.foldl (assignComp refs vals) s) else none

/-- Assignment of component `i` from a reference. -/
def assignCompRef (refs srcs : List Nat) (s : Store V) (i : Nat) : Store V :=
  match refs[i]?, srcs[i]? with
  | some r, some q => upd s r (s q)
  | _, _ => s

/-- `std::tuple<TS&...>::operator=` from a tuple of references. -/
def assignTupleRefs (ord : List Nat) (refs srcs : List Nat) (s : Store V) : Option (Store V) :=
  if refs.length = srcs.length then some (ord.foldl (assignCompRef refs srcs) s) else none

/-- Lines 50-54: a selector returns a reference to a component, here its index. -/
def sel (k : Nat) (t : List V) : Option Nat := if k < t.length then some k else none

def getFirst (t : List V) : Option Nat := sel 0 t
def getSecond (t : List V) : Option Nat := sel 1 t
def getThird (t : List V) : Option Nat := sel 2 t
def getFourth (t : List V) : Option Nat := sel 3 t
def getFifth (t : List V) : Option Nat := sel 4 t

end Helper.TupleC
