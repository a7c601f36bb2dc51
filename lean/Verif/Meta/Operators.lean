import Verif.Basic
/-!
# The concepts `CanAdd` … `HasEquality` and the aliases `SumType` … `EqualsType` (metaprogramming.hpp:94-105, 181-185), property C106

For a class `X` and a set of overloads of one binary operator, each of whose parameters is `X`, `X&`, `const X&`, `X&&` or `const X&&`. The concept asks
whether the operator can be applied to two named variables of the types given, the alias applies it to `std::declval` of these types.
What counts is the value category of the operands. Overload resolution is that of [over.ics.rank] for these parameters. Left out:
operators for other classes, conversions, templates, `volatile`; `X` is not abstract.
-/
set_option linter.unusedSectionVars false
namespace Helper.Meta.Operators

/-- Value categories: lvalue, const lvalue, rvalue, const rvalue. -/
inductive Cat where
  | lv | clv | rv | crv
deriving DecidableEq, Repr

/-- Parameters: `X`, `X&`, `const X&`, `X&&`, `const X&&`. -/
inductive Param where
  | val | l | cl | r | cr
deriving DecidableEq, Repr

inductive Ref where
  | none | l | r
deriving DecidableEq, Repr

/-- The template arguments: `X`, `const X`, and references to them. -/
structure Arg where
  const : Bool
  ref : Ref
deriving DecidableEq, Repr

/-- Whether objects of the class can be made from objects of each category. -/
structure Class where
  copy : Bool
  move : Bool
deriving DecidableEq, Repr

/-- An rvalue is moved if possible and else copied (a class whose move constructor is deleted has `copy` and `move` false for rvalues; it is left out). -/
def Class.from (k : Class) : Cat → Bool
  | .rv => k.move || k.copy
  | _ => k.copy

/-- Whether an argument can be passed to a parameter [dcl.init.ref]. -/
def accepts (k : Class) : Param → Cat → Bool
  | .val, c => k.from c
  | .l, c => c = .lv
  | .cl, _ => true
  | .r, c => c = .rv
  | .cr, c => c = .rv || c = .crv

/-- [over.ics.rank]: passing the argument to `p` is better than passing it to `q`; a parameter that is not a reference is neither better nor worse than a reference. -/
def betterParam (p q : Param) : Bool :=
  match p, q with
  | .r, .cl | .cr, .cl => true   -- an rvalue bound to an rvalue reference
  | .l, .cl | .r, .cr => true    -- less const
  | _, _ => false

/-- An overload: its parameters. -/
abbrev Cand := Param × Param

def viable (k : Class) (a b : Cat) (c : Cand) : Bool := accepts k c.1 a && accepts k c.2 b

/-- [over.match.best] -/
def better (c d : Cand) : Bool :=
  (betterParam c.1 d.1 && !betterParam d.2 c.2) || (betterParam c.2 d.2 && !betterParam d.1 c.1)

/-- Whether `x + y` is well-formed for operands of the categories: one of the viable overloads is better than the others. -/
def wellFormed (k : Class) (cs : List Cand) (a b : Cat) : Bool :=
  let v := cs.filter (viable k a b)
  v.any fun c => v.all fun d => c = d || better c d

/-- The category of `std::declval<A>()`. -/
def declval (a : Arg) : Cat :=
  match a.ref, a.const with
  | .l, false => .lv
  | .l, true => .clv
  | _, false => .rv
  | _, true => .crv

/-- The category of a variable of type `A`. -/
def variable_ (a : Arg) : Cat := if a.const then .clv else .lv

/-- metaprogramming.hpp:94: `SumType<A1,A2>` exists. -/
def sumTypeExists (k : Class) (cs : List Cand) (a b : Arg) : Bool := wellFormed k cs (declval a) (declval b)

/-- metaprogramming.hpp:182: `CanAdd<A1,A2>` -/
def canAdd (k : Class) (cs : List Cand) (a b : Arg) : Bool := wellFormed k cs (variable_ a) (variable_ b)

/-- C106, for lvalue references: the concept holds if and only if the alias exists, whatever the overloads. -/
theorem C106_references_partial (k : Class) (cs : List Cand) (a b : Arg) (ha : a.ref = .l) (hb : b.ref = .l) :
    canAdd k cs a b = sumTypeExists k cs a b := by
  have h : ∀ x : Arg, x.ref = .l → variable_ x = declval x := by
    intro x hx
    obtain ⟨c, _⟩ := x
    cases hx
    cases c <;> rfl
  rw [canAdd, sumTypeExists, h a ha, h b hb]

/-- C106, for all types: the concept holds if and only if the alias exists, if all parameters are `const X&`, or `X` with a class that can be copied. -/
theorem C106_const_partial (k : Class) (cs : List Cand) (hc : ∀ c ∈ cs, ∀ p, (p = c.1 ∨ p = c.2) → p = .cl ∨ (p = .val ∧ k.copy = true)) (a b : Arg) :
    canAdd k cs a b = sumTypeExists k cs a b := by
  have acc : ∀ (p : Param) (x : Cat), p = .cl ∨ (p = .val ∧ k.copy = true) → accepts k p x = true := by
    intro p x hp
    rcases hp with rfl | ⟨rfl, h⟩
    · rfl
    · cases x <;> simp [accepts, Class.from, h]
  have all : ∀ x y : Cat, cs.filter (viable k x y) = cs := by
    intro x y
    rw [List.filter_eq_self]
    intro c h
    simp [viable, acc c.1 x (hc c h _ (.inl rfl)), acc c.2 y (hc c h _ (.inr rfl))]
  simp only [canAdd, sumTypeExists, wellFormed, all]

/-- C106 is false: an operator for rvalues only has a `SumType` but not `CanAdd`; one for variables only has `CanAdd` but no `SumType`; so it is also for a class that
cannot be copied and an operator that takes its operands by value; and an ambiguity can occur for variables only or for rvalues only. -/
theorem C106_refuted :
    (sumTypeExists ⟨true, true⟩ [(.r, .r)] ⟨false, .none⟩ ⟨false, .none⟩ = true ∧ canAdd ⟨true, true⟩ [(.r, .r)] ⟨false, .none⟩ ⟨false, .none⟩ = false) ∧
    (sumTypeExists ⟨true, true⟩ [(.r, .r)] ⟨false, .r⟩ ⟨false, .r⟩ = true ∧ canAdd ⟨true, true⟩ [(.r, .r)] ⟨false, .r⟩ ⟨false, .r⟩ = false) ∧
    (sumTypeExists ⟨true, true⟩ [(.l, .l)] ⟨false, .none⟩ ⟨false, .none⟩ = false ∧ canAdd ⟨true, true⟩ [(.l, .l)] ⟨false, .none⟩ ⟨false, .none⟩ = true) ∧
    (sumTypeExists ⟨false, true⟩ [(.val, .val)] ⟨false, .none⟩ ⟨false, .none⟩ = true ∧
      canAdd ⟨false, true⟩ [(.val, .val)] ⟨false, .none⟩ ⟨false, .none⟩ = false) ∧
    (sumTypeExists ⟨true, true⟩ [(.cl, .cl), (.r, .cl), (.cl, .r)] ⟨false, .none⟩ ⟨false, .none⟩ = false ∧
      canAdd ⟨true, true⟩ [(.cl, .cl), (.r, .cl), (.cl, .r)] ⟨false, .none⟩ ⟨false, .none⟩ = true) ∧
    (sumTypeExists ⟨true, true⟩ [(.val, .val), (.l, .l)] ⟨false, .none⟩ ⟨false, .none⟩ = true ∧
      canAdd ⟨true, true⟩ [(.val, .val), (.l, .l)] ⟨false, .none⟩ ⟨false, .none⟩ = false) := by decide

/-- The usual overloads, and all four of a class with expensive copies. -/
example : canAdd ⟨true, true⟩ [(.cl, .cl)] ⟨true, .l⟩ ⟨false, .none⟩ = true ∧ sumTypeExists ⟨true, true⟩ [(.cl, .cl)] ⟨true, .l⟩ ⟨false, .none⟩ = true ∧
    sumTypeExists ⟨true, true⟩ [(.cl, .cl), (.r, .cl), (.cl, .r), (.r, .r)] ⟨false, .none⟩ ⟨false, .none⟩ = true ∧
    canAdd ⟨true, true⟩ [(.cl, .cl), (.r, .cl), (.cl, .r), (.r, .r)] ⟨false, .none⟩ ⟨false, .none⟩ = true ∧
    canAdd ⟨true, true⟩ [(.cl, .cl), (.cl, .cl)] ⟨false, .none⟩ ⟨false, .none⟩ = true := by decide

end Helper.Meta.Operators
