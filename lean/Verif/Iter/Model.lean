import Verif.Basic
/-!
# Model of `include/iterator.hpp`

A client class `I` provides `equal`, `distance_to` and `advance` (random access) or `equal` and
`increment` (forward); the facade builds the operators from them. `std::ptrdiff_t` values are the
integers from -2^63 to 2^63-1; overflow is undefined.

`operator*`, `operator->` and the operators that are missing are in `Algo.lean`. `PairIterator::distance_to` is declared but not
defined; `PairIterator::dereference` is in `Pair.lean`.
-/
namespace Helper.Iter

/-- What the client class provides, iterator.hpp:50-54. Calls may fail. -/
structure Core (I : Type u) where
  equal : I → I → Bool
  distanceTo : I → I → Int
  advance : I → Int → Res I
  increment : I → Res I

variable {I : Type u}

/-- `-n` for a `ptrdiff_t`. -/
def neg (n : Int) : Res Int := if n = -2 ^ 63 then .ub .overflow else .ok (-n)

/-- iterator.hpp:75, 108 `operator==`. -/
def eq (C : Core I) (i j : I) : Bool := C.equal i j
/-- iterator.hpp:76, 109 `operator!=`. -/
def ne (C : Core I) (i j : I) : Bool := !C.equal i j
/-- iterator.hpp:77 `operator<`. -/
def lt (C : Core I) (i j : I) : Bool := C.distanceTo i j > 0
/-- iterator.hpp:78 `operator<=`. -/
def le (C : Core I) (i j : I) : Bool := C.distanceTo i j ≥ 0
/-- iterator.hpp:79 `operator>`. -/
def gt (C : Core I) (i j : I) : Bool := C.distanceTo i j < 0
/-- iterator.hpp:80 `operator>=`. -/
def ge (C : Core I) (i j : I) : Bool := C.distanceTo i j ≤ 0
/-- iterator.hpp:81 `operator-(iterator)`. -/
def diff (C : Core I) (i j : I) : Res Int := neg (C.distanceTo i j)
/-- iterator.hpp:82 `operator+`. -/
def plus (C : Core I) (i : I) (n : Int) : Res I := C.advance i n
/-- iterator.hpp:83 `operator-(ptrdiff_t)`. -/
def minus (C : Core I) (i : I) (n : Int) : Res I := (neg n).bind fun m => C.advance i m
/-- iterator.hpp:84 `operator+=`; the result is the new iterator. -/
def plusAssign (C : Core I) (i : I) (n : Int) : Res I := C.advance i n
/-- iterator.hpp:85 `operator-=`. -/
def minusAssign (C : Core I) (i : I) (n : Int) : Res I := (neg n).bind fun m => C.advance i m
/-- iterator.hpp:86 `operator++` of the random access facade. -/
def preInc (C : Core I) (i : I) : Res I := C.advance i 1
/-- iterator.hpp:87 `operator--`. -/
def preDec (C : Core I) (i : I) : Res I := C.advance i (-1)

/-- iterator.hpp:110 `operator++` of the forward facade: the value returned and the iterator after. -/
def fwdPreInc (C : Core I) (i : I) : Res (I × I) := (C.increment i).bind fun i' => .ok (i', i')
/-- iterator.hpp:111 `operator++(int)`. -/
def fwdPostInc (C : Core I) (i : I) : Res (I × I) := (C.increment i).bind fun i' => .ok (i, i')

/-- iterator.hpp:138-139 `PairIterator::equal`, with the `==` of the components. -/
def pairEqual {I1 : Type u} {I2 : Type v} (eq1 : I1 → I1 → Bool) (eq2 : I2 → I2 → Bool) (p q : I1 × I2) : Bool :=
  eq1 p.1 q.1 && eq2 p.2 q.2

/-- iterator.hpp:140-141 `PairIterator::advance`, with the `+=` of the components; if the second one
fails, the first has already been advanced. -/
def pairAdvance {I1 : Type u} {I2 : Type v} (add1 : I1 → Int → Res I1) (add2 : I2 → Int → Res I2) (p : I1 × I2) (k : Int) :
    Res Unit × (I1 × I2) :=
  match add1 p.1 k with
  | .ok a =>
    match add2 p.2 k with
    | .ok b => (.ok (), (a, b))
    | .exn e => (.exn e, (a, p.2))
    | .ub u => (.ub u, (a, p.2))
    | .abort => (.abort, (a, p.2))
  | .exn e => (.exn e, p)
  | .ub u => (.ub u, p)
  | .abort => (.abort, p)

end Helper.Iter
