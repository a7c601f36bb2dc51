/-!
# Model of the type-list templates (metaprogramming.hpp:49-71)

A type is an element of `T`; a parameter pack is a list. The defining equations follow the partial
specialisations; where two match, the more specialised one (with the repeated type) is chosen. A template
whose primary definition is only declared, or a member that does not exist, is `none` (the program is
ill-formed).
-/
namespace Helper.Meta

variable {T : Type} [DecidableEq T]

/-- Lines 49-50 `First`, `FirstType`. -/
def first : List T → Option T
  | t1 :: _ => some t1
  | [] => none

/-- Lines 51-52 `Second`, `SecondType`. -/
def second : List T → Option T
  | _ :: t2 :: _ => some t2
  | _ => none

/-- Lines 57-61 `AreAllSame`. -/
def areAllSame : List T → Bool
  | [] => true
  | [_] => true
  | t0 :: t1 :: ts => if t0 = t1 then areAllSame (t0 :: ts) else false
termination_by l => l.length

/-- Lines 63-66 `IsOneOf`; also the concept `OneOf` (line 177). -/
def isOneOf (t : T) : List T → Bool
  | [] => false
  | u :: us => if t = u then true else isOneOf t us

/-- Lines 68-71 `IndexOf<T,TS...>::N`. -/
def indexOf (t : T) : List T → Option Nat
  | [] => none
  | t0 :: ts => if t = t0 then some 0 else (indexOf t ts).map (· + 1)

end Helper.Meta
