import Verif.Basic
import Verif.StdOrd.Map
import Verif.SetC.Model
/-!
# Model of `Map` and the free map functions (container.hpp:249-291)

A map is the list of its elements in iteration order. A failing `HELPER_ASSERT` throws
`std::runtime_error` (macros.hpp). References returned by `value` and `operator[]` are used at once for
reading or writing. Not modelled: allocation failure, comparators and copies that throw.
-/
namespace Helper.MapC

variable {κ : Type u} {ν : Type v} [Cmp κ]

abbrev Map (κ : Type u) (ν : Type v) := List (κ × ν)

/-- container.hpp:253-254, and the inherited range and initializer list constructors (255). -/
def ofList (l : List (κ × ν)) : Map κ ν := OMap.ofList l

/-- container.hpp:258 const `operator[]`, 259-260 `get`, 263-268 `value` (reading). -/
def get (m : Map κ ν) (k : κ) : Res ν :=
  match OMap.find k m with
  | some e => .ok e.2
  | none => .exn .runtimeError

/-- container.hpp:261-262 `has_key`. -/
def hasKey (m : Map κ ν) (k : κ) : Bool := (OMap.find k m).isSome

/-- Writing through a reference to the value of the element whose key is equivalent to `k`. -/
def setValue (m : Map κ ν) (k : κ) (v : ν) : Map κ ν :=
  m.map fun e => if Cmp.equiv e.1 k then (e.1, v) else e

/-- container.hpp:263-265: `m.value(k) = v`. -/
def valueAssign (m : Map κ ν) (k : κ) (v : ν) : Res (Map κ ν) :=
  match OMap.find k m with
  | some _ => .ok (setValue m k v)
  | none => .exn .runtimeError

/-- container.hpp:257 `operator[]`, reading: inserts `T()` for an absent key. -/
def indexRead (dflt : ν) (m : Map κ ν) (k : κ) : ν × Map κ ν :=
  match OMap.find k m with
  | some e => (e.2, m)
  | none => (dflt, OMap.insert k dflt m)

/-- container.hpp:257: `m[k] = v`. -/
def indexAssign (dflt : ν) (m : Map κ ν) (k : κ) (v : ν) : Map κ ν :=
  setValue (indexRead dflt m k).2 k v

/-- container.hpp:269-272 `insert(kv)`, `insert(k,v)`. -/
def insert (m : Map κ ν) (k : κ) (v : ν) : Map κ ν := OMap.insert k v m

/-- container.hpp:286-287 free `insert(m,k,v)`: `.first` is the iterator to the element with that key. -/
def insertF (m : Map κ ν) (k : κ) (v : ν) : Res ν × Map κ ν :=
  let m' := OMap.insert k v m
  match OMap.find k m' with
  | some e => (.ok e.2, m')
  | none => (.ub .outOfBounds, m')

/-- A `const std::map&` argument: another map, or the map that is being changed. -/
inductive Arg (κ : Type u) (ν : Type v) where
  | other (m : Map κ ν)
  | self

def Arg.now : Arg κ ν → Map κ ν → Map κ ν
  | .other m, _ => m
  | .self, cur => cur

/-- container.hpp:273-274 `adjoin`; `i` is the position of the iterator in the argument. -/
def adjoinLoop (arg : Arg κ ν) : Nat → Nat → Map κ ν → Option (Map κ ν)
  | 0, _, _ => none
  | fuel + 1, i, cur =>
    match (arg.now cur)[i]? with
    | none => some cur
    | some e => adjoinLoop arg fuel (i + 1) (insert cur e.1 e.2)

def adjoin (fuel : Nat) (m : Map κ ν) (a : Arg κ ν) : Option (Map κ ν) := adjoinLoop a fuel 0 m

/-- container.hpp:284-285 `join`. -/
def join (fuel : Nat) (m1 m2 : Map κ ν) : Option (Map κ ν) := adjoin fuel m1 (.other m2)

/-- container.hpp:275-276 `remove_keys`. -/
def removeKeys (m : Map κ ν) : List κ → Map κ ν
  | [] => m
  | k :: s => removeKeys (OMap.erase k m) s

/-- container.hpp:277-279 `keys`: the loop. -/
def keysLoop : Map κ ν → List κ → List κ
  | [], res => res
  | e :: m, res => keysLoop m (OSet.insert e.1 res)

def keys (m : Map κ ν) : List κ := keysLoop m []

/-- container.hpp:280-282 `values`: the loop. -/
def valuesLoop : Map κ ν → List ν → List ν
  | [], res => res
  | e :: m, res => valuesLoop m (res ++ [e.2])

def values (m : Map κ ν) : List ν := valuesLoop m []

/-- container.hpp:288-291 `restrict_keys`: the loop. -/
def restrictLoop (keys : List κ) : Map κ ν → Map κ ν → Map κ ν
  | [], result => result
  | e :: m, result => restrictLoop keys m (if SetC.contains keys e.1 then insert result e.1 e.2 else result)

/-- container.hpp:288-291 `restrict_keys(m,k)`. `isSet` tells whether the object `k` refers to is a
`Helper::Set`; the `static_cast` from a plain `std::set` to `Set` is undefined. -/
def restrictKeys (m : Map κ ν) (isSet : Bool) (k : List κ) : Res (Map κ ν) :=
  if isSet then .ok (restrictLoop k m []) else .ub .badDowncast

end Helper.MapC
