import Verif.Basic
/-!
# Model of `include/stopwatch.hpp`

The clock is an arbitrary sequence of readings in nanoseconds (64-bit signed, the representation of
`high_resolution_clock` in the usual libraries); the `k`-th call of `now()` in the run returns `clock k`.
`D` is a duration type whose unit is `u > 0` nanoseconds (10^9, 10^6, 10^3 for the three aliases of lines
40-42) with an integer representation. The result of `elapsed_seconds` is the exact rational number; its
rounding to `double` is modelled in `Verif.Double.Model`.
-/
namespace Helper.Stopwatch

/-- stopwatch.hpp:62-63; `reads` counts the calls of `now()`. -/
structure St where
  reads : Nat
  initial : Int
  clicked : Int
deriving DecidableEq, Repr

inductive Op where
  | restart
  | click
  /-- `duration()` -/
  | query
deriving DecidableEq, Repr

/-- `a - b` for 64-bit signed integers. -/
def sub64 (a b : Int) : Res Int :=
  if -2 ^ 63 ≤ a - b ∧ a - b < 2 ^ 63 then .ok (a - b) else .ub .overflow

/-- stopwatch.hpp:52 `duration()`: `duration_cast` truncates towards zero. -/
def duration (u : Nat) (s : St) : Res Int := (sub64 s.clicked s.initial).bind fun d => .ok (d.tdiv u)

/-- stopwatch.hpp:54 `elapsed_seconds()`. -/
def elapsedSeconds (u : Nat) (s : St) : Res Rat := (duration u s).bind fun d => .ok ((d : Rat) * (u : Rat) / 1000000000)

/-- stopwatch.hpp:57 `restart()`. -/
def restart (clock : Nat → Int) (s : St) : St :=
  { reads := s.reads + 1, initial := clock s.reads, clicked := clock s.reads }

/-- stopwatch.hpp:59 `click()`. -/
def click (clock : Nat → Int) (s : St) : St := { s with reads := s.reads + 1, clicked := clock s.reads }

def step (clock : Nat → Int) (s : St) : Op → St
  | .restart => restart clock s
  | .click => click clock s
  | .query => s

/-- stopwatch.hpp:49: the constructor restarts the members, whatever they contain. -/
def construct (clock : Nat → Int) : St := restart clock ⟨0, 0, 0⟩

/-- A watch after a history of calls. -/
def run (clock : Nat → Int) (ops : List Op) : St := ops.foldl (step clock) (construct clock)

end Helper.Stopwatch
