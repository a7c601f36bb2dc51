import Verif.Basic
import Verif.Meta.Model
/-!
# Model of `CodedVariant` (variant.hpp:47-55, variant.inl.hpp)

`T` are the types that may be alternatives; `code t` is the value of the constant expression
`t::code()`, of some integral or enumeration type. `conv` is the conversion to the code type `C`, the
identity on the values of `C`. A visitor is any function from the alternative and a state (its own and that of the
rest of the program) to an outcome and a new state, so that the number and order of its calls are visible. An ill-formed
instantiation is `none`.
-/
namespace Helper.Variant

variable {T : Type} {ρ σ : Type}

abbrev Visitor (T ρ σ : Type) := T → σ → Res ρ × σ

/-- A `switch` all of whose cases return and whose default calls `abort()`. -/
def switch (code : Int) : List (Int × (σ → Res ρ × σ)) → σ → Res ρ × σ
  | [], s => (.abort, s)
  | (c, body) :: rest, s => if code = c then body s else switch code rest s

/-- variant.inl.hpp:37-40. -/
def visit0 (_code : T → Int) (_v : Visitor T ρ σ) (c : Int) : σ → Res ρ × σ :=
  switch c []

/-- variant.inl.hpp:42-46. -/
def visit1 (code : T → Int) (v : Visitor T ρ σ) (c : Int) (t1 : T) : σ → Res ρ × σ :=
  switch c [(code t1, v t1)]

/-- variant.inl.hpp:48-52. -/
def visit2 (code : T → Int) (v : Visitor T ρ σ) (c : Int) (t1 t2 : T) : σ → Res ρ × σ :=
  switch c [(code t1, v t1), (code t2, v t2)]

/-- variant.inl.hpp:54-58. -/
def visit3 (code : T → Int) (v : Visitor T ρ σ) (c : Int) (t1 t2 t3 : T) : σ → Res ρ × σ :=
  switch c [(code t1, v t1), (code t2, v t2), (code t3, v t3)]

/-- variant.inl.hpp:60-64. -/
def visit4 (code : T → Int) (v : Visitor T ρ σ) (c : Int) (t1 t2 t3 t4 : T) : σ → Res ρ × σ :=
  switch c [(code t1, v t1), (code t2, v t2), (code t3, v t3), (code t4, v t4)]

/-- variant.inl.hpp:66-71. -/
def visit5 (code : T → Int) (v : Visitor T ρ σ) (c : Int) (t1 t2 t3 t4 t5 : T) : σ → Res ρ × σ :=
  switch c [(code t1, v t1), (code t2, v t2), (code t3, v t3), (code t4, v t4), (code t5, v t5)]

/-- variant.inl.hpp:73-78. -/
def visit6 (code : T → Int) (v : Visitor T ρ σ) (c : Int) (t1 t2 t3 t4 t5 t6 : T) : σ → Res ρ × σ :=
  switch c [(code t1, v t1), (code t2, v t2), (code t3, v t3), (code t4, v t4), (code t5, v t5), (code t6, v t6)]

/-- variant.inl.hpp:80-85. -/
def visit7 (code : T → Int) (v : Visitor T ρ σ) (c : Int) (t1 t2 t3 t4 t5 t6 t7 : T) : σ → Res ρ × σ :=
  switch c [(code t1, v t1), (code t2, v t2), (code t3, v t3), (code t4, v t4), (code t5, v t5), (code t6, v t6), (code t7, v t7)]

/-- variant.inl.hpp:87-92. -/
def visit8 (code : T → Int) (v : Visitor T ρ σ) (c : Int) (t1 t2 t3 t4 t5 t6 t7 t8 : T) : σ → Res ρ × σ :=
  switch c [(code t1, v t1), (code t2, v t2), (code t3, v t3), (code t4, v t4), (code t5, v t5), (code t6, v t6), (code t7, v t7), (code t8, v t8)]

/-- variant.inl.hpp:94-101. -/
def visit9 (code : T → Int) (v : Visitor T ρ σ) (c : Int) (t1 t2 t3 t4 t5 t6 t7 t8 t9 : T) : σ → Res ρ × σ :=
  switch c [(code t1, v t1), (code t2, v t2), (code t3, v t3), (code t4, v t4), (code t5, v t5), (code t6, v t6), (code t7, v t7), (code t8, v t8), (code t9, v t9)]

/-- variant.inl.hpp:103-110. -/
def visit10 (code : T → Int) (v : Visitor T ρ σ) (c : Int) (t1 t2 t3 t4 t5 t6 t7 t8 t9 t10 : T) : σ → Res ρ × σ :=
  switch c [(code t1, v t1), (code t2, v t2), (code t3, v t3), (code t4, v t4), (code t5, v t5), (code t6, v t6), (code t7, v t7), (code t8, v t8), (code t9, v t9), (code t10, v t10)]

/-- variant.inl.hpp:112-119. -/
def visit11 (code : T → Int) (v : Visitor T ρ σ) (c : Int) (t1 t2 t3 t4 t5 t6 t7 t8 t9 t10 t11 : T) : σ → Res ρ × σ :=
  switch c [(code t1, v t1), (code t2, v t2), (code t3, v t3), (code t4, v t4), (code t5, v t5), (code t6, v t6), (code t7, v t7), (code t8, v t8), (code t9, v t9), (code t10, v t10), (code t11, v t11)]

/-- variant.inl.hpp:121-128. -/
def visit12 (code : T → Int) (v : Visitor T ρ σ) (c : Int) (t1 t2 t3 t4 t5 t6 t7 t8 t9 t10 t11 t12 : T) : σ → Res ρ × σ :=
  switch c [(code t1, v t1), (code t2, v t2), (code t3, v t3), (code t4, v t4), (code t5, v t5), (code t6, v t6), (code t7, v t7), (code t8, v t8), (code t9, v t9), (code t10, v t10), (code t11, v t11), (code t12, v t12)]

/-- variant.inl.hpp:130-138. -/
def visit13 (code : T → Int) (v : Visitor T ρ σ) (c : Int) (t1 t2 t3 t4 t5 t6 t7 t8 t9 t10 t11 t12 t13 : T) : σ → Res ρ × σ :=
  switch c [(code t1, v t1), (code t2, v t2), (code t3, v t3), (code t4, v t4), (code t5, v t5), (code t6, v t6), (code t7, v t7), (code t8, v t8), (code t9, v t9), (code t10, v t10), (code t11, v t11), (code t12, v t12), (code t13, v t13)]

/-- variant.inl.hpp:140-148. -/
def visit14 (code : T → Int) (v : Visitor T ρ σ) (c : Int) (t1 t2 t3 t4 t5 t6 t7 t8 t9 t10 t11 t12 t13 t14 : T) : σ → Res ρ × σ :=
  switch c [(code t1, v t1), (code t2, v t2), (code t3, v t3), (code t4, v t4), (code t5, v t5), (code t6, v t6), (code t7, v t7), (code t8, v t8), (code t9, v t9), (code t10, v t10), (code t11, v t11), (code t12, v t12), (code t13, v t13), (code t14, v t14)]

/-- variant.inl.hpp:150-158. -/
def visit15 (code : T → Int) (v : Visitor T ρ σ) (c : Int) (t1 t2 t3 t4 t5 t6 t7 t8 t9 t10 t11 t12 t13 t14 t15 : T) : σ → Res ρ × σ :=
  switch c [(code t1, v t1), (code t2, v t2), (code t3, v t3), (code t4, v t4), (code t5, v t5), (code t6, v t6), (code t7, v t7), (code t8, v t8), (code t9, v t9), (code t10, v t10), (code t11, v t11), (code t12, v t12), (code t13, v t13), (code t14, v t14), (code t15, v t15)]

/-- variant.inl.hpp:160-168. -/
def visit16 (code : T → Int) (v : Visitor T ρ σ) (c : Int) (t1 t2 t3 t4 t5 t6 t7 t8 t9 t10 t11 t12 t13 t14 t15 t16 : T) : σ → Res ρ × σ :=
  switch c [(code t1, v t1), (code t2, v t2), (code t3, v t3), (code t4, v t4), (code t5, v t5), (code t6, v t6), (code t7, v t7), (code t8, v t8), (code t9, v t9), (code t10, v t10), (code t11, v t11), (code t12, v t12), (code t13, v t13), (code t14, v t14), (code t15, v t15), (code t16, v t16)]

/-- `coded_visit<V,C,TS...>`: the explicit template arguments select the overload with that number of
types; there is none for more than 16. Repeated codes make the `switch` ill-formed. -/
def codedVisit (code : T → Int) (v : Visitor T ρ σ) (c : Int) (ts : List T) : Option (σ → Res ρ × σ) :=
  if (ts.map code).Nodup then
    match ts with
    | [] => some (visit0 code v c)
    | [t1] => some (visit1 code v c t1)
    | [t1, t2] => some (visit2 code v c t1 t2)
    | [t1, t2, t3] => some (visit3 code v c t1 t2 t3)
    | [t1, t2, t3, t4] => some (visit4 code v c t1 t2 t3 t4)
    | [t1, t2, t3, t4, t5] => some (visit5 code v c t1 t2 t3 t4 t5)
    | [t1, t2, t3, t4, t5, t6] => some (visit6 code v c t1 t2 t3 t4 t5 t6)
    | [t1, t2, t3, t4, t5, t6, t7] => some (visit7 code v c t1 t2 t3 t4 t5 t6 t7)
    | [t1, t2, t3, t4, t5, t6, t7, t8] => some (visit8 code v c t1 t2 t3 t4 t5 t6 t7 t8)
    | [t1, t2, t3, t4, t5, t6, t7, t8, t9] => some (visit9 code v c t1 t2 t3 t4 t5 t6 t7 t8 t9)
    | [t1, t2, t3, t4, t5, t6, t7, t8, t9, t10] => some (visit10 code v c t1 t2 t3 t4 t5 t6 t7 t8 t9 t10)
    | [t1, t2, t3, t4, t5, t6, t7, t8, t9, t10, t11] => some (visit11 code v c t1 t2 t3 t4 t5 t6 t7 t8 t9 t10 t11)
    | [t1, t2, t3, t4, t5, t6, t7, t8, t9, t10, t11, t12] => some (visit12 code v c t1 t2 t3 t4 t5 t6 t7 t8 t9 t10 t11 t12)
    | [t1, t2, t3, t4, t5, t6, t7, t8, t9, t10, t11, t12, t13] => some (visit13 code v c t1 t2 t3 t4 t5 t6 t7 t8 t9 t10 t11 t12 t13)
    | [t1, t2, t3, t4, t5, t6, t7, t8, t9, t10, t11, t12, t13, t14] => some (visit14 code v c t1 t2 t3 t4 t5 t6 t7 t8 t9 t10 t11 t12 t13 t14)
    | [t1, t2, t3, t4, t5, t6, t7, t8, t9, t10, t11, t12, t13, t14, t15] => some (visit15 code v c t1 t2 t3 t4 t5 t6 t7 t8 t9 t10 t11 t12 t13 t14 t15)
    | [t1, t2, t3, t4, t5, t6, t7, t8, t9, t10, t11, t12, t13, t14, t15, t16] => some (visit16 code v c t1 t2 t3 t4 t5 t6 t7 t8 t9 t10 t11 t12 t13 t14 t15 t16)
    | _ => none
  else none

/-- variant.hpp:47-48: the variant; its alternatives are part of its type. -/
structure CV where
  code : Int
deriving DecidableEq, Repr

/-- variant.hpp:50, the argument having been converted to `C` by the caller. -/
def ofCode (conv : Int → Int) (c : Int) : CV := ⟨conv c⟩

/-- variant.hpp:51: from an alternative; constrained to the types of the variant. -/
def ofAlt [DecidableEq T] (conv : Int → Int) (code : T → Int) (ts : List T) (t : T) : Option CV :=
  if Meta.isOneOf t ts then some ⟨conv (code t)⟩ else none

/-- variant.hpp:53 -/
def CV.getCode (x : CV) : Int := x.code

/-- variant.hpp:55; the operands of `==` are converted to a common type, which keeps the values of both (no
mixture of signed and unsigned types is considered). -/
def holds (code : T → Int) (t : T) (x : CV) : Bool := x.getCode == code t

/-- variant.inl.hpp:172-174 `accept`. -/
def accept (code : T → Int) (ts : List T) (v : Visitor T ρ σ) (x : CV) : Option (σ → Res ρ × σ) :=
  codedVisit code v x.getCode ts

/-- `accept` of a visitor that is an object of its own, with state `α`: `V` has a call operator `call`, which may
be non-const as line 173 casts the constness of the argument away. `isConst` tells whether the object was
defined const; changing it is then undefined. -/
def acceptObj [DecidableEq α] (code : T → Int) (ts : List T) (call : T → α → Res ρ × α) (isConst : Bool) (x : CV) :
    Option (α → Res ρ × α) :=
  accept code ts (fun t s => let r := call t s; if isConst ∧ r.2 ≠ s then (.ub .constModified, s) else r) x

end Helper.Variant
