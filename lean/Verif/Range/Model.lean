import Verif.Basic
/-!
# Model of `include/range.hpp`

`size_t` values are natural numbers below 2^64; arithmetic is modulo 2^64.
-/
namespace Helper.Range

/-- range.hpp:42-43. -/
structure Range where
  start : Nat
  stop : Nat
deriving DecidableEq, Repr

/-- range.hpp:52 `range(stop)`. -/
def range1 (stop : Nat) : Range := ⟨0, stop⟩

/-- range.hpp:53 `range(start,stop)`. -/
def range (start stop : Nat) : Range := ⟨start, stop⟩

/-- range.hpp:46 `operator[]`. -/
def index (r : Range) (i : Nat) : Nat := (r.start + i) % 2 ^ 64

/-- range.hpp:47 `size()`. -/
def size (r : Range) : Nat := (r.stop + 2 ^ 64 - r.start) % 2 ^ 64

/-- range.hpp:48-50. -/
def getStart (r : Range) : Nat := r.start
def getStop (r : Range) : Nat := r.stop
def stride (_ : Range) : Nat := 1

/-- range.hpp:55-62 `RangeIterator`: its only member. -/
abbrev Iter := Nat

/-- range.hpp:57 `operator++`. -/
def inc (i : Iter) : Iter := (i + 1) % 2 ^ 64

/-- range.hpp:58 `operator*`. -/
def deref (i : Iter) : Nat := i

/-- range.hpp:59 `operator!=`. -/
def ne (i j : Iter) : Bool := i != j

/-- range.hpp:63-64. -/
def «begin» (r : Range) : Iter := getStart r
def «end» (r : Range) : Iter := getStop r

/-- `for(auto i : r)`: the values visited, `none` if the fuel is used up. -/
def forLoop (last : Iter) : Nat → Iter → Option (List Nat)
  | 0, _ => none
  | fuel + 1, i => if ne i last then (forLoop last fuel (inc i)).map (deref i :: ·) else some []

def visit (fuel : Nat) (r : Range) : Option (List Nat) := forLoop («end» r) fuel («begin» r)

end Helper.Range
