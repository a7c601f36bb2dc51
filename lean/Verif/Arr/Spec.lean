import Verif.Arr.Model
/-!
# Specification of `Array`: variables holding lists

The specification knows nothing of memory: every array variable that is alive holds a list.
-/
namespace Helper.Arr

variable {V : Type}

/-- Array variables as plain values; `none`: not alive. -/
abbrev Spec (V : Type) := Nat → Option (List V)

/-- Value of a reference argument. -/
def argVal (sp : Spec V) : Arg V → Option V
  | .ext v => some v
  | .elem y i => (sp y).bind (·[i]?)

/-- Value of a sequence argument; `none` unless it is a range inside its array. -/
def srcVal (sp : Spec V) : Src V → Option (List V)
  | .ext vs => some vs
  | .range y i j => (sp y).bind fun l => if i ≤ j ∧ j ≤ l.length then some ((l.drop i).take (j - i)) else none

/-- `n` elements fit into the address space. -/
def Fits (sz n : Nat) : Prop := n * sz < 2 ^ 64

/-- What the operations mean on values, with the rules that the client has to keep: a constructor must not
be applied to a variable that is alive, the other operations must be; indices, ranges and
references must be inside their arrays; sizes must fit into the address space; and a range passed to
`assign` must not belong to the same array unless it is the whole of it or empty. -/
inductive Means (sz : Nat) (dflt : V) (sp : Spec V) : Op V → Spec V → Prop
  | ctorDefault {x} : sp x = none → Means sz dflt sp (.ctorDefault x) (upd sp x (some []))
  | ctorSize {x n} : sp x = none → Fits sz n →
      Means sz dflt sp (.ctorSize x n) (upd sp x (some (List.replicate n dflt)))
  | ctorFill {x n a v} : sp x = none → Fits sz n → argVal sp a = some v →
      Means sz dflt sp (.ctorFill x n a) (upd sp x (some (List.replicate n v)))
  | ctorRange {x r vs} : sp x = none → Fits sz vs.length → srcVal sp r = some vs →
      Means sz dflt sp (.ctorRange x r) (upd sp x (some vs))
  | ctorGen {x n g} : sp x = none → Fits sz n →
      Means sz dflt sp (.ctorGen x n g) (upd sp x (some ((List.range n).map g)))
  | ctorCopy {x y l} : sp x = none → sp y = some l →
      Means sz dflt sp (.ctorCopy x y) (upd sp x (some l))
  | ctorMove {x y l} : sp x = none → sp y = some l →
      Means sz dflt sp (.ctorMove x y) (upd (upd sp x (some l)) y (some []))
  | assignCopy {x y k l} : sp x = some k → sp y = some l →
      Means sz dflt sp (.assignCopy x y) (upd sp x (some l))
  | assignMove {x y k l} : sp x = some k → sp y = some l → x ≠ y →
      Means sz dflt sp (.assignMove x y) (upd (upd sp x (some l)) y (some []))
  | assignMoveSelf {x l} : sp x = some l → Means sz dflt sp (.assignMove x x) sp
  | resize {x n l} : sp x = some l → Fits sz n →
      Means sz dflt sp (.resize x n) (upd sp x (some (l.take n ++ List.replicate (n - l.length) dflt)))
  | resizeVal {x n a l v} : sp x = some l → Fits sz n → argVal sp a = some v →
      Means sz dflt sp (.resizeVal x n a) (upd sp x (some (l.take n ++ List.replicate (n - l.length) v)))
  | reallocate {x n l} : sp x = some l → Fits sz n →
      Means sz dflt sp (.reallocate x n)
        (upd sp x (some (if n = l.length then l else List.replicate n dflt)))
  | swap {x y k l} : sp x = some k → sp y = some l →
      Means sz dflt sp (.swap x y) (upd (upd sp x (some l)) y (some k))
  | write {x i v l} : sp x = some l → i < l.length →
      Means sz dflt sp (.write x i v) (upd sp x (some (l.set i v)))
  | fill {x a l v} : sp x = some l → argVal sp a = some v →
      Means sz dflt sp (.fill x a) (upd sp x (some (List.replicate l.length v)))
  | fillFrom {x r l vs} : sp x = some l → srcVal sp r = some vs → vs.length = l.length →
      Means sz dflt sp (.fillFrom x r) (upd sp x (some vs))
  | assign {x r l vs} : sp x = some l → Fits sz vs.length → srcVal sp r = some vs →
      (∀ i j, r = .range x i j → vs.length = l.length ∨ vs = []) →
      Means sz dflt sp (.assign x r) (upd sp x (some vs))
  | destroy {x l} : sp x = some l → Means sz dflt sp (.destroy x) (upd sp x none)

/-- A history of operations that all complete, on values. -/
inductive Hist (sz : Nat) (dflt : V) : Spec V → List (Op V) → Spec V → Prop
  | nil {sp} : Hist sz dflt sp [] sp
  | cons {sp sp' sp'' o os} : Means sz dflt sp o sp' → Hist sz dflt sp' os sp'' →
      Hist sz dflt sp (o :: os) sp''

/-- Reading array variables out of memory: the contents of `x` in state `s`. -/
def contents (s : St V) (x : Nat) : Option (List V) :=
  match s.vars x with
  | none => none
  | some ⟨0, none⟩ => some []
  | some ⟨_ + 1, none⟩ => none
  | some ⟨n, some b⟩ =>
    match s.blocks b with
    | none => none
    | some cells => if n ≤ cells.length ∧ (cells.take n).all Option.isSome then
        some ((cells.take n).filterMap id) else none

end Helper.Arr
