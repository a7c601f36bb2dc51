/-!
# Macro arguments as text (macros.hpp:49-176, test.hpp:59-96, 306-321)

A macro replaces its parameters by the text of the arguments, so that the operators in an argument compete with those around it.
An argument is a sequence of operands separated by infix operators; operands are literals and other expressions without
infix operators outside parentheses, given by their values. Operands have no side effects here (for those see
`Macro.Model`). Numbers are unbounded integers; strings can only be written and tested.
-/
namespace Helper.MText

/-- A value: the stream that the macro writes to, a number, or a string. -/
inductive Val where
  | os
  | num (n : Int)
  | str (s : String)
deriving DecidableEq, Repr

/-- The infix operators except assignments and the comma; the part between `?` and `:` of a conditional stands for itself, as if in parentheses. -/
inductive Op where
  | mul | div | mod | add | sub | shl | shr | cmp3 | lt | gt | le | ge | eq | ne | band | bxor | bor | land | lor
  | cond (mid : Val)
deriving DecidableEq, Repr

/-- Levels of the C++ grammar ([expr.mul] to [expr.cond]); a higher level binds tighter. -/
def Op.prec : Op → Nat
  | .mul | .div | .mod => 12
  | .add | .sub => 11
  | .shl | .shr => 10
  | .cmp3 => 9
  | .lt | .gt | .le | .ge => 8
  | .eq | .ne => 7
  | .band => 6
  | .bxor => 5
  | .bor => 4
  | .land => 3
  | .lor => 2
  | .cond _ => 1

/-- Conditionals group from right to left, all other operators from left to right. -/
def Op.right : Op → Bool
  | .cond _ => true
  | _ => false

/-- A text: the first operand and the operators with the operands to their right. -/
structure Flat where
  head : Val
  tail : List (Op × Val)
deriving DecidableEq, Repr

/-- The text of `a`, the operator `o`, the text of `b`. -/
def Flat.glue (a : Flat) (o : Op) (b : Flat) : Flat := ⟨a.head, a.tail ++ (o, b.head) :: b.tail⟩

/-- `a << b` -/
notation:65 a:65 " <<' " b:66 => Flat.glue a Op.shl b

/-- A single operand. -/
def Flat.one (v : Val) : Flat := ⟨v, []⟩

instance : Coe Val Flat := ⟨Flat.one⟩

/-- How the text is read. -/
inductive Tree where
  | leaf (v : Val)
  | node (o : Op) (l r : Tree)
deriving DecidableEq, Repr

/-- `q`, to the right of the right operand of `p`, takes that operand away from `p`. -/
def Op.steals (q p : Op) : Bool := decide (p.prec < q.prec) || (decide (p.prec = q.prec) && q.right)

/-- Reads one more operator and operand to the right of what was read before. -/
def Tree.push : Tree → Op → Val → Tree
  | .leaf v, q, a => .node q (.leaf v) (.leaf a)
  | .node p l r, q, a => if q.steals p then .node p l (r.push q a) else .node q (.node p l r) (.leaf a)

/-- How C++ reads a text. -/
def Flat.parse (f : Flat) : Tree := f.tail.foldl (fun t p => t.push p.1 p.2) (.leaf f.head)

/-! ## Types and values -/

inductive Ty where
  | os | num | str
deriving DecidableEq, Repr

def Val.ty : Val → Ty
  | .os => .os
  | .num _ => .num
  | .str _ => .str

/-- The type of `l o r`; `none` if it is ill-formed. Streams have `<<` for numbers and strings and a conversion to `bool`
that is used for operands of `&&`, `||` and the condition of a conditional; strings (of type `const char*`) have the
latter. -/
def Op.ty : Op → Ty → Ty → Option Ty
  | .shl, .os, .num => some .os
  | .shl, .os, .str => some .os
  | .land, _, _ => some .num
  | .lor, _, _ => some .num
  | .cond m, _, b => if m.ty = b then some b else none
  | _, .num, .num => some .num
  | _, _, _ => none

def Tree.ty : Tree → Option Ty
  | .leaf v => some v.ty
  | .node o l r =>
    match l.ty, r.ty with
    | some a, some b => o.ty a b
    | _, _ => none

/-- What `<<` writes. -/
def Val.text : Val → String
  | .os => ""
  | .num n => toString n
  | .str s => s

def Val.int : Val → Int
  | .num n => n
  | _ => 0

/-- Conversion to `bool`; the stream is in a good state, pointers are not null. -/
def Val.truth : Val → Bool
  | .num n => n ≠ 0
  | _ => true

def ofBool (b : Bool) : Val := .num (if b then 1 else 0)

/-- Evaluation; `sem` gives the operators on numbers, `b` is the text in the stream so far. -/
def Tree.eval (sem : Op → Int → Int → Int) : Tree → String → Val × String
  | .leaf v, b => (v, b)
  | .node o l r, b =>
    match o with
    | .shl =>
      match l.eval sem b with
      | (.os, b1) => match r.eval sem b1 with
        | (y, b2) => (.os, b2 ++ y.text)
      | (x, b1) => match r.eval sem b1 with
        | (y, b2) => (.num (sem .shl x.int y.int), b2)
    | .land =>
      match l.eval sem b with
      | (x, b1) => if x.truth then
          match r.eval sem b1 with
          | (y, b2) => (ofBool y.truth, b2)
        else (ofBool false, b1)
    | .lor =>
      match l.eval sem b with
      | (x, b1) => if x.truth then (ofBool true, b1)
        else
          match r.eval sem b1 with
          | (y, b2) => (ofBool y.truth, b2)
    | .cond m =>
      match l.eval sem b with
      | (x, b1) => if x.truth then (m, b1) else r.eval sem b1
    | o =>
      match l.eval sem b with
      | (x, b1) =>
        match r.eval sem b1 with
        | (y, b2) => (.num (sem o x.int y.int), b2)

/-- A statement that writes into an empty stream, and the text in it afterwards; `none` if it does not compile. -/
def written (sem : Op → Int → Int → Int) (f : Flat) : Option String :=
  if f.parse.ty.isSome then some (f.parse.eval sem "").2 else none

/-! ## The macros -/

/-- Where a macro stands: `__FILE__`, `__LINE__`, `__FUNCTION__`, `HELPER_PRETTY_FUNCTION`. -/
structure Place where
  file : String
  line : Int
  function : String
  pretty : String

/-- Lines 49-54 `HELPER_THROW(except,func,msg)`: the text of the exception. -/
def throwText (except : String) (func msg : Flat) : Flat :=
  Val.os <<' Val.str (except ++ " in ") <<' func <<' Val.str ": " <<' msg

/-- `__FILE__<<":"<<__LINE__<<": "<<__FUNCTION__` -/
def Place.func (p : Place) : Flat := Val.str p.file <<' Val.str ":" <<' Val.num p.line <<' Val.str ": " <<' Val.str p.function

/-- `__FILE__<<":"<<__LINE__<<": "<<HELPER_PRETTY_FUNCTION` -/
def Place.prettyFunc (p : Place) : Flat := Val.str p.file <<' Val.str ":" <<' Val.num p.line <<' Val.str ": " <<' Val.str p.pretty

/-- Line 60 `HELPER_ASSERT(expression)` and line 85 `HELPER_DEBUG_ASSERT(expression)`; `src` is `#expression`. -/
def assertText (p : Place) (src : String) : Flat :=
  throwText "std::runtime_error" p.func (Val.str "Assertion `" <<' Val.str src <<' Val.str "' failed.")

/-- Line 107 `HELPER_PRECONDITION(expression)`. -/
def preconditionText (p : Place) (src : String) : Flat :=
  throwText "std::runtime_error" p.prettyFunc (Val.str "Precondition `" <<' Val.str src <<' Val.str "' failed.")

/-- Line 116 `HELPER_DEBUG_PRECONDITION(expression)`. -/
def debugPreconditionText (p : Place) (src : String) : Flat :=
  throwText "std::runtime_error" p.func (Val.str "Precondition `" <<' Val.str src <<' Val.str "' failed.")

/-- Line 134 `HELPER_ASSERT_MSG(expression,error)` and line 70 `HELPER_DEBUG_ASSERT_MSG(expression,error)`. -/
def assertMsgText (p : Place) (src : String) (error : Flat) : Flat :=
  throwText "std::runtime_error" p.prettyFunc
    (Val.str "Assertion `" <<' Val.str src <<' Val.str "' failed.\n" <<' Val.str "  " <<' error)

/-- Line 99 `HELPER_PRECONDITION_MSG(expression,error)`. -/
def preconditionMsgText (p : Place) (src : String) (error : Flat) : Flat :=
  throwText "std::runtime_error" p.prettyFunc
    (Val.str "Precondition `" <<' Val.str src <<' Val.str "' failed.\n" <<' Val.str "  " <<' error)

/-- Line 127 `HELPER_FAIL_MSG(error)`. -/
def failMsgText (p : Place) (error : Flat) : Flat :=
  throwText "std::runtime_error" p.prettyFunc (Val.str "ErrorTag " <<' error)

/-- Line 142 `HELPER_ASSERT_EQUAL(expression1,expression2)`; `src1` and `src2` are `#expression1` and `#expression2`. -/
def assertEqualText (p : Place) (src1 src2 : String) (e1 e2 : Flat) : Flat :=
  throwText "std::runtime_error" p.prettyFunc
    (Val.str "Assertion `" <<' Val.str src1 <<' Val.str "==" <<' Val.str src2 <<' Val.str "' failed.\n" <<' Val.str "  " <<'
      e1 <<' Val.str " != " <<' e2)

/-- Line 140: the condition of `HELPER_ASSERT_EQUAL`; the arguments are in parentheses. -/
def assertEqualCond (e1 e2 : Flat) : Tree := .node .eq e1.parse e2.parse

/-- Lines 156-159 `HELPER_NOTIFY(msg)`, 161-164 `HELPER_WARN(msg)`, 166-171 `HELPER_WARN_ONCE(msg)`, 173-176
`HELPER_ERROR(msg)`, and the four macros of test.hpp:69-96, with the text before and after the argument. `std::endl` is
written as a string. -/
def noteText (before : Flat) (msg : Flat) (after : String) : Flat :=
  Val.os <<' before <<' msg <<' Val.str after <<' Val.str "\n"

/-- test.hpp:309 `abs(expression-expected)`: the argument of `abs`. -/
def withinText (e x : Flat) : Flat := Flat.glue e .sub x

/-- test.hpp:310 `error <= tolerance`. -/
def toleranceText (error : Int) (tol : Flat) : Flat := Flat.glue (Flat.one (.num error)) .le tol

end Helper.MText
