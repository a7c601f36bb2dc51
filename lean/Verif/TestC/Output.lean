import Verif.TestC.Props
/-!
# What the test macros write (test.hpp:41-581)

The model of `TestC.Model` with the text written to `std::cout` and `std::cerr`, as a list of tokens: literals, the
standard macros for the place of the macro call, the text of a macro argument (`#argument`), and printed values. Each
use of a macro has a number, its `site`. Since C++17 the operands of `<<` are evaluated from left to right, so text is
written before the expressions to the right of it are evaluated. Flushing is not modelled. Printing a value does not
throw. Expressions under test write nothing themselves.
-/
namespace Helper.TestC

open Helper.Macro

variable {σ V α β : Type}

inductive Tok (V : Type) where
  | lit (s : String)
  /-- `__FILE__` -/ | file (l : Nat)
  /-- `__LINE__` -/ | line (l : Nat)
  /-- `__FUNCTION__` -/ | func (l : Nat)
  /-- `HELPER_PRETTY_FUNCTION` -/ | pretty (l : Nat)
  /-- the text of argument `k` -/ | src (l k : Nat)
  /-- `class_name<...>()` of the first type (line 558) -/ | type (l : Nat)
  | val (v : V)
  | what (t : Thrown)
  | num (n : Nat)
  /-- `HELPER_CURRENT_TESTING_CLASS`, set by the site -/ | cls (c : Option Nat)
deriving DecidableEq, Repr

/-- Where the program writes to. -/
structure Io (V : Type) where
  out : List (Tok V)
  err : List (Tok V)
  /-- line 43 -/ cls : Option Nat
  /-- line 55 -/ cases : Nat
deriving DecidableEq, Repr

structure WT (σ V : Type) where
  w : W σ
  io : Io V

abbrev MT (σ V α : Type) := WT σ V → R α × WT σ V

namespace MT

def pure (a : α) : MT σ V α := fun w => (.val a, w)

def bind (m : MT σ V α) (f : α → MT σ V β) : MT σ V β := fun w =>
  match m w with
  | (.val a, w') => f a w'
  | (.thrown t, w') => (.thrown t, w')
  | (.overflow, w') => (.overflow, w')

/-- Something that writes nothing. -/
def silent (m : M σ α) : MT σ V α := fun w => ((m w.w).1, ⟨(m w.w).2, w.io⟩)

def lift (e : Exp σ α) : MT σ V α := silent (M.lift e)

def tryCatch (m : MT σ V Unit) (h : Thrown → Option (MT σ V Unit)) : MT σ V Unit := fun w =>
  match m w with
  | (.thrown t, w') =>
    match h t with
    | some k => k w'
    | none => (.thrown t, w')
  | r => r

end MT

/-- One after the other. -/
scoped macro:60 a:term:61 " ;; " b:term:60 : term => `(MT.bind $a fun _ => $b)

/-- `std::cout << ...` -/
def cout (ts : List (Tok V)) : MT σ V Unit := fun w => (.val (), { w with io := { w.io with out := w.io.out ++ ts } })

/-- `std::cerr << ...` -/
def cerr (ts : List (Tok V)) : MT σ V Unit := fun w => (.val (), { w with io := { w.io with err := w.io.err ++ ts } })

/-- `std::cout << (e)` -/
def coutV (e : Exp σ V) : MT σ V Unit := (MT.lift e).bind fun v => cout [.val v]

/-- `std::cerr << (e)` -/
def cerrV (e : Exp σ V) : MT σ V Unit := (MT.lift e).bind fun v => cerr [.val v]

/-- `++HELPER_TEST_FAILURES` -/
def count : MT σ V Unit := MT.silent incr

/-- The bar of lines 61, 63 and others. -/
def bar : Tok V := .lit "****************************************\n"

/-- `"ERROR: " << __FILE__ << ":" << __LINE__ << ": " << HELPER_PRETTY_FUNCTION << ": "` -/
def here (l : Nat) : List (Tok V) :=
  [.lit "ERROR: ", .file l, .lit ":", .line l, .lit ": ", .pretty l, .lit ": "]

/-- The same with `__FUNCTION__`. -/
def hereF (l : Nat) : List (Tok V) :=
  [.lit "ERROR: ", .file l, .lit ":", .line l, .lit ": ", .func l, .lit ": "]

/-- Lines 59-66 `HELPER_TEST_CLASS(classname,testclassconstruct)`. -/
def testClassT (l : Nat) (body : MT σ V Unit) : MT σ V Unit :=
  cout [bar, .lit "TESTING CLASS ", .src l 0, .lit "\n", bar, .lit "\n"] ;;
  (fun w => (.val (), { w with io := { w.io with cls := some l } })) ;;
  body

/-- Lines 69-73 `HELPER_PRINT_TEST_CASE_TITLE(pTitle)`. -/
def titleT (e : Exp σ V) : MT σ V Unit :=
  cout [.lit "*** "] ;;
  (fun w => (.val (), { w with io := { w.io with cases := w.io.cases + 1, out := w.io.out ++ [.num (w.io.cases + 1)] } })) ;;
  cout [.lit ": "] ;; coutV e ;; cout [.lit " ***", .lit "\n", .lit "\n"]

/-- Lines 76-80 `HELPER_PRINT_TEST_COMMENT(pComment)`. -/
def commentT (e : Exp σ V) : MT σ V Unit :=
  cout [.lit "* COMMENT: "] ;; coutV e ;; cout [.lit "", .lit "\n"]

/-- Lines 84-88 `HELPER_TEST_WARN(message)`, 92-96 `HELPER_TEST_NOTIFY(message)`: `s` is the word they begin with. -/
def warnT (s : String) (e : Exp σ V) : MT σ V Unit :=
  cout [.lit s] ;; coutV e ;; cout [.lit "", .lit "\n"] ;;
  cerr [.lit s] ;; cerrV e ;; cerr [.lit "", .lit "\n"]

/-- Lines 100-110 `HELPER_TEST_CATCH(message)` after a `try` block. -/
def catchingT (l : Nat) (msg : List (Tok V)) (m : MT σ V Unit) : MT σ V Unit :=
  m.tryCatch fun t => match t with
    | .std n => some <|
      count ;;
      cout [.lit "exception: \"", .what (.std n), .lit "\"\n", .lit "\n"] ;;
      cerr (here l ++ msg ++ [.lit " throwed \"", .what (.std n), .lit "\".", .lit "\n"])
    | .other _ => some <|
      count ;;
      cout [.lit "unknown exception\n", .lit "\n"] ;;
      cerr (here l ++ msg ++ [.lit " throwed an unknown exception.", .lit "\n"])

/-- Lines 114-129 `HELPER_TEST_CALL(function)`. -/
def callT (l : Nat) (function : MT σ V Unit) : MT σ V Unit :=
  cout [bar, .lit "CALLING ", .src l 0, .lit "\n", bar, .lit "\n"] ;;
  function.tryCatch fun t => match t with
    | .std n => some <|
      count ;;
      cout [.lit "ERROR: exception '", .what (.std n), .lit "' in ", .src l 0, .lit ": ", .what (.std n), .lit "\n"] ;;
      cerr [.lit "ERROR: ", .file l, .lit ":", .line l, .lit ": ", .lit "calling ", .src l 0, .lit ": ", .what (.std n), .lit "\n"] ;;
      cout [.lit "\n"]
    | .other _ => none

/-- Lines 133-140 `HELPER_TEST_SKIP(function)`. -/
def skipT (l : Nat) : MT σ V Unit :=
  cout [bar, .lit "SKIPPING ", .src l 0, .lit "\n", bar, .lit "\n"] ;;
  MT.silent skip ;; cout [.lit "\n"]

/-- Lines 144-149 `HELPER_TEST_EXECUTE(statement)`. -/
def executeT (l : Nat) (statement : MT σ V Unit) : MT σ V Unit :=
  cout [.src l 0, .lit ": "] ;; statement ;; cout [.lit " (ok)\n", .lit "\n"]

/-- Lines 153-161 `HELPER_TEST_TRY(statement)`. -/
def tryT (l : Nat) (statement : MT σ V Unit) : MT σ V Unit :=
  cout [.src l 0, .lit ": "] ;;
  catchingT l [.lit "Statement `", .src l 0, .lit "'"] (statement ;; cout [.lit " (ok)\n", .lit "\n"])

/-- Lines 165-169 `HELPER_TEST_PRINT(expression)`. -/
def printT (l : Nat) (e : Exp σ V) : MT σ V Unit :=
  cout [.src l 0, .lit " = "] ;; coutV e ;; cout [.lit "\n", .lit "\n"]

/-- Lines 173-180 `HELPER_TEST_EVALUATE(expression)`. -/
def evaluateT (l : Nat) (e : Exp σ V) : MT σ V Unit :=
  cout [.src l 0, .lit ": "] ;;
  catchingT l [.lit "Expression `", .src l 0, .lit "'"] (coutV e ;; cout [.lit "\n", .lit "\n"])

/-- Lines 184-195 `HELPER_TEST_ASSERT(expression)`. -/
def assertT (l : Nat) (e : Exp σ Bool) : MT σ V Unit :=
  cout [.src l 0, .lit ": "] ;;
  (MT.lift e).bind fun result =>
    if result then cout [.lit "true\n", .lit "\n"]
    else count ;; cout [.lit "\nERROR: false", .lit "\n"] ;;
      cerr (hereF l ++ [.lit "Assertion `", .src l 0, .lit "' failed.", .lit "\n"])

/-- Lines 46-50 `testing_check(os,expression,expected)`: the result is written before it is compared. -/
def testingCheckT (rtl : Bool) (eq : V → V → Exp σ Bool) (e x : Exp σ V) : MT σ V Bool :=
  (MT.lift (Exp.both rtl e x)).bind fun p => (cout [.val p.1]).bind fun _ => MT.lift (eq p.1 p.2)

/-- Lines 199-209 `HELPER_TEST_CHECK_WARN(expression,expected)`. -/
def checkWarnT (l : Nat) (rtl : Bool) (eq : V → V → Exp σ Bool) (e x : Exp σ V) : MT σ V Unit :=
  cout [.src l 0, .lit ": "] ;;
  (testingCheckT rtl eq e x).bind fun ok =>
    if ok then cout [.lit "\n", .lit "\n"]
    else
      cout [.lit "\nWARNING: expected ", .src l 0, .lit " = ", .src l 1, .lit " == "] ;; coutV x ;; cout [.lit " \n", .lit "\n"] ;;
      cerr [.lit "WARNING: ", .file l, .lit ":", .line l, .lit ": ", .pretty l, .lit ": ",
        .lit "Check `", .src l 0, .lit "==", .src l 1, .lit "' failed; obtained "] ;; cerrV e ;; cerr [.lit "\n"]

/-- Lines 213-224 `HELPER_TEST_CHECK(expression,expected)`. -/
def checkT (l : Nat) (rtl : Bool) (eq : V → V → Exp σ Bool) (e x : Exp σ V) : MT σ V Unit :=
  cout [.src l 0, .lit ": "] ;;
  (testingCheckT rtl eq e x).bind fun ok =>
    if ok then cout [.lit "\n", .lit "\n"]
    else count ;;
      (cout [.lit "\nERROR: expected ", .src l 0, .lit " = ", .src l 1, .lit " == "] ;; coutV x ;; cout [.lit " \n", .lit "\n"]) ;;
      cerr (here l ++ [.lit "Check `", .src l 0, .lit "==", .src l 1, .lit "' failed; obtained "]) ;; cerrV e ;; cerr [.lit "\n"]

/-- The text of lines 235-236, 267-268 and 282-283: both expressions with their values. -/
def twoValues (l : Nat) (e1 e2 : Exp σ V) : MT σ V Unit :=
  cout [.lit "\nERROR: ", .src l 0, .lit ":\n           "] ;; coutV e1 ;;
  cout [.lit "\n     : ", .src l 1, .lit ":\n           "] ;; coutV e2 ;; cout [.lit "\n"]

/-- The text of lines 237, 269 and 284; `kind` and `op` name the relation. -/
def twoValuesErr (l : Nat) (kind op : String) (e1 e2 : Exp σ V) : MT σ V Unit :=
  cerr (here l ++ [.lit kind, .lit " `", .src l 0, .lit op, .src l 1, .lit "' failed; ", .src l 0, .lit "="]) ;; cerrV e1 ;;
  cerr [.lit "; ", .src l 1, .lit "="] ;; cerrV e2 ;; cerr [.lit "\n"]

/-- Lines 228-240 `HELPER_TEST_SAME(expression1,expression2)`. -/
def sameT (l : Nat) (rtl : Bool) (same : V → V → Exp σ Bool) (e1 e2 : Exp σ V) : MT σ V Unit :=
  cout [.lit "same(", .src l 0, .lit ",", .src l 1, .lit "): "] ;;
  (MT.lift ((Exp.both rtl e1 e2).bind fun p => same p.1 p.2)).bind fun ok =>
    if ok then cout [.lit "true\n", .lit "\n"]
    else count ;; twoValues l e1 e2 ;; twoValuesErr l "Identity" " === " e1 e2

/-- The text of lines 251-254 and 298-301. -/
def oneValue (l : Nat) (e : Exp σ V) : MT σ V Unit :=
  cout [.lit "\nERROR: ", .src l 0, .lit ":\n           "] ;; coutV e ;; cout [.lit "\n"]

/-- Lines 243-256 `HELPER_TEST_SAME_AS(expression,expected)`. -/
def sameAsT (l : Nat) (rtl : Bool) (same : V → V → Exp σ Bool) (e x : Exp σ V) : MT σ V Unit :=
  cout [.src l 0, .lit " == ", .src l 1, .lit ": "] ;;
  (MT.lift ((Exp.both rtl e x).bind fun p => same p.1 p.2)).bind fun ok =>
    if ok then cout [.lit "true\n", .lit "\n"]
    else count ;; oneValue l e ;;
      cerr (here l ++ [.lit "Sameness of `", .src l 0, .lit " and ", .src l 1, .lit "' failed;", .lit "\n"]) ;;
      cerr [.lit "  ", .src l 0, .lit "="] ;; cerrV e ;; cerr [.lit "\n"] ;;
      cerr [.lit "  ", .src l 1, .lit "="] ;; cerrV x ;; cerr [.lit "\n"]

/-- Lines 260-272 `HELPER_TEST_EQUAL(expression1,expression2)`. -/
def equalT (l : Nat) (rtl : Bool) (eq : V → V → Exp σ Bool) (e1 e2 : Exp σ V) : MT σ V Unit :=
  cout [.src l 0, .lit " == ", .src l 1, .lit ": "] ;;
  (MT.lift ((Exp.both rtl e1 e2).bind fun p => eq p.1 p.2)).bind fun ok =>
    if ok then cout [.lit "true\n", .lit "\n"]
    else count ;; twoValues l e1 e2 ;; twoValuesErr l "Equality" " == " e1 e2

/-- Lines 275-287 `HELPER_TEST_NOT_EQUAL(expression1,expression2)`. -/
def notEqualT (l : Nat) (rtl : Bool) (eq : V → V → Exp σ Bool) (e1 e2 : Exp σ V) : MT σ V Unit :=
  cout [.src l 0, .lit " != ", .src l 1, .lit ": "] ;;
  (MT.lift ((Exp.both rtl e1 e2).bind fun p => eq p.1 p.2)).bind fun ok =>
    if ok then count ;; twoValues l e1 e2 ;; twoValuesErr l "Inequality" " != " e1 e2
    else cout [.lit "true\n", .lit "\n"]

/-- Lines 290-303 `HELPER_TEST_EQUALS(expression,expected)`. -/
def equalsT (l : Nat) (rtl : Bool) (eq : V → V → Exp σ Bool) (e x : Exp σ V) : MT σ V Unit :=
  cout [.src l 0, .lit " == ", .src l 1, .lit ": "] ;;
  (MT.lift ((Exp.both rtl e x).bind fun p => eq p.1 p.2)).bind fun ok =>
    if ok then cout [.lit "true\n", .lit "\n"]
    else count ;; oneValue l e ;;
      cerr (here l ++ [.lit "Equality `", .src l 0, .lit " == ", .src l 1, .lit "' failed;", .lit "\n"]) ;;
      cerr [.lit "  ", .src l 0, .lit "="] ;; cerrV e ;; cerr [.lit "\n"] ;;
      cerr [.lit "  ", .src l 1, .lit "="] ;; cerrV x ;; cerr [.lit "\n"]

/-- Lines 306-321 `HELPER_TEST_WITHIN(expression,expected,tolerance)`; `dist` is `abs(e-x)` for arguments that need no
parentheses. -/
def withinT (l : Nat) (rtl : Bool) (dist : V → V → Exp σ V) (le : V → V → Exp σ Bool) (e x tol : Exp σ V) : MT σ V Unit :=
  cout [.src l 0, .lit " ~ ", .src l 1, .lit ": "] ;;
  (MT.lift ((Exp.both rtl e x).bind fun p => dist p.1 p.2)).bind fun error =>
    (MT.lift (tol.bind fun t => le error t)).bind fun ok =>
      if ok then cout [.lit "true\n", .lit "\n"]
      else count ;;
        (cout [.lit "\nERROR: ", .src l 0, .lit ":\n           "] ;; coutV e ;;
          cout [.lit "\n     : ", .src l 1, .lit ":\n           "] ;; coutV x ;;
          cout [.lit "\n     : error: ", .val error, .lit "\n     : tolerance "] ;; coutV tol ;; cout [.lit "\n"]) ;;
        cerr (here l ++ [.lit "ApproximateTag equality `", .src l 0, .lit " ~ ", .src l 1, .lit "' failed; ", .src l 0, .lit "="]) ;;
        cerrV e ;; cerr [.lit "; ", .src l 1, .lit "="] ;; cerrV x ;; cerr [.lit "; error=", .val error, .lit "; tolerance="] ;;
        cerrV tol ;; cerr [.lit "\n"]

/-- Lines 326-337 `HELPER_TEST_LESS(expression,expected)`. -/
def lessT (l : Nat) (rtl : Bool) (lt : V → V → Exp σ Bool) (e x : Exp σ V) : MT σ V Unit :=
  cout [.src l 0, .lit " < ", .src l 1, .lit ": "] ;;
  (MT.lift ((Exp.both rtl e x).bind fun p => lt p.1 p.2)).bind fun ok =>
    if ok then cout [.lit "true\n", .lit "\n"]
    else count ;; oneValue l e ;;
      cerr (here l ++ [.lit "Equality `", .src l 0, .lit " < ", .src l 1, .lit "' failed; ", .src l 0, .lit "="]) ;;
      cerrV e ;; cerr [.lit "\n"]

/-- Lines 341-352 `HELPER_TEST_UNARY_PREDICATE(predicate,argument)`. -/
def unaryPredicateT (l : Nat) (p : V → Exp σ Bool) (a : Exp σ V) : MT σ V Unit :=
  cout [.src l 0, .lit "(", .src l 1, .lit ") with ", .src l 1, .lit "="] ;; coutV a ;; cout [.lit ": "] ;;
  (MT.lift (a.bind p)).bind fun ok =>
    if ok then cout [.lit "true\n", .lit "\n"]
    else count ;; cout [.lit "\nERROR: false", .lit "\n"] ;;
      cerr (here l ++ [.lit "Predicate `", .src l 0, .lit "(", .src l 1, .lit ")' with ", .src l 1, .lit "="]) ;;
      cerrV a ;; cerr [.lit " is false.", .lit "\n"]

/-- Lines 356-367 `HELPER_TEST_BINARY_PREDICATE(predicate,argument1,argument2)`. -/
def binaryPredicateT (l : Nat) (rtl : Bool) (p : V → V → Exp σ Bool) (a1 a2 : Exp σ V) : MT σ V Unit :=
  cout [.src l 0, .lit "(", .src l 1, .lit ",", .src l 2, .lit ") with ", .src l 1, .lit "="] ;; coutV a1 ;;
  cout [.lit ", ", .src l 2, .lit "="] ;; coutV a2 ;; cout [.lit ": "] ;;
  (MT.lift ((Exp.both rtl a1 a2).bind fun q => p q.1 q.2)).bind fun ok =>
    if ok then cout [.lit "true\n", .lit "\n"]
    else count ;; cout [.lit "\nERROR: false", .lit "\n"] ;;
      cerr (here l ++ [.lit "Predicate `", .src l 0, .lit "(", .src l 1, .lit ",", .src l 2, .lit ")' with\n  ", .src l 1, .lit "="]) ;;
      cerrV a1 ;; cerr [.lit ";\n  ", .src l 2, .lit "="] ;; cerrV a2 ;; cerr [.lit " is false.", .lit "\n"]

/-- Lines 371-382 `HELPER_TEST_COMPARE(expression,comparison,expected)`. -/
def compareT (l : Nat) (rtl : Bool) (cmp : V → V → Exp σ Bool) (e x : Exp σ V) : MT σ V Unit :=
  cout [.src l 0, .lit ": "] ;; coutV e ;;
  (MT.lift ((Exp.both rtl e x).bind fun p => cmp p.1 p.2)).bind fun ok =>
    if ok then cout [.lit " ", .src l 1, .lit " "] ;; coutV x ;; cout [.lit ": true\n", .lit "\n"]
    else count ;;
      (cout [.lit "\nERROR: expected: ", .src l 0, .src l 1, .src l 2, .lit "="] ;; coutV x ;; cout [.lit "\n"]) ;;
      cerr (here l ++ [.lit "Comparison `", .src l 0, .src l 1, .src l 2, .lit "' failed; ", .src l 0, .lit "="]) ;; cerrV e ;;
      cerr [.lit "; ", .src l 2, .lit "="] ;; cerrV x ;; cerr [.lit "\n"]

/-- Lines 386-398 `HELPER_TEST_RESULT_COMPARE(Type,expression,comparison,expected)`. -/
def resultCompareT (l : Nat) (cmp : V → V → Exp σ Bool) (e x : Exp σ V) : MT σ V Unit :=
  (MT.lift e).bind fun result =>
    cout [.src l 1, .lit ": ", .val result] ;;
    (MT.lift (x.bind fun b => cmp result b)).bind fun ok =>
      if ok then cout [.lit " ", .src l 2, .lit " "] ;; coutV x ;; cout [.lit "\n", .lit "\n"]
      else count ;;
        cout [.lit "\nERROR: expected: ", .src l 1, .src l 2, .src l 3, .lit "\n"] ;;
        cerr (here l ++ [.lit "Comparison `", .src l 1, .src l 2, .src l 3, .lit "' failed; ", .src l 1, .lit "=", .val result,
          .lit "; ", .src l 3, .lit "="]) ;; cerrV x ;; cerr [.lit "\n"]

/-- How the object is constructed: lines 402-411 `HELPER_TEST_DECLARE(Class,variable)`, 440-449
`HELPER_TEST_NAMED_CONSTRUCT(Class,variable,expression)`, 453-462 `HELPER_TEST_ASSIGN_CONSTRUCT(Class,variable,expression)`. -/
inductive How where
  | declare | named | assign
deriving DecidableEq, Repr

def How.title (l : Nat) : How → List (Tok V)
  | .declare => [.src l 0, .lit " ", .src l 1, .lit ": "]
  | .named => [.src l 0, .lit " ", .src l 1, .lit " = ", .src l 0, .lit "::", .src l 2, .lit ": "]
  | .assign => [.src l 0, .lit " ", .src l 1, .lit " = ", .src l 2, .lit ": "]

def How.msg (l : Nat) : How → List (Tok V)
  | .declare => [.lit "Constructor `", .src l 0, .lit "", .src l 1, .lit "'"]
  | .named => [.lit "Named constructor `", .src l 1, .lit "=", .src l 0, .lit "::", .src l 2, .lit "'"]
  | .assign => [.lit "Assignment `", .src l 1, .lit "=", .src l 2, .lit "'"]

/-- See `How`: the object is constructed within the `try` block, printed and destroyed, and constructed again after it. The
constructor gives the value that is printed. -/
def declareT (h : How) (l : Nat) (c : Exp σ V) : MT σ V Unit :=
  cout (h.title l) ;;
  catchingT l (h.msg l) ((MT.lift c).bind fun v => cout [.src l 1, .lit "==", .val v, .lit "\n", .lit "\n"]) ;;
  (MT.lift c).bind fun _ => MT.pure ()

/-- Lines 415-418 `HELPER_TEST_CONSTRUCT(Class,variable,expression)` (`withText`), 421-424
`HELPER_TEST_DEFAULT_CONSTRUCT(Class,variable)`. -/
def constructT (withText : Bool) (l : Nat) (c : Exp σ V) : MT σ V Unit :=
  cout ([.src l 0, .lit " ", .src l 1] ++ (if withText then [.lit "", .src l 2] else []) ++ [.lit ": "]) ;;
  (MT.lift c).bind fun v => cout [.src l 1, .lit "==", .val v, .lit "\n", .lit "\n"]

/-- Lines 465-473 `HELPER_TEST_ASSIGN(variable,expression)`; the assignment gives the value that is printed. -/
def assignT (l : Nat) (a : Exp σ V) : MT σ V Unit :=
  cout [.src l 0, .lit " = ", .src l 1, .lit ": "] ;;
  catchingT l [.lit "Assignment `", .src l 0, .lit "=", .src l 1, .lit "'"] (coutV a ;; cout [.lit "\n", .lit "\n"])

/-- Lines 477-494 `HELPER_TEST_THROWS(statement,error)`; `error` tells which exceptions the handler for the expected type
catches. -/
def throwsT (l : Nat) (error : Thrown → Bool) (statement : MT σ V Unit) : MT σ V Unit :=
  cout [.src l 0, .lit ": "] ;;
  (statement ;; count ;;
    cout [.lit "\nERROR: expected ", .src l 1, .lit "; no exception thrown\n"] ;;
    cerr (here l ++ [.lit "expected ", .src l 1, .lit "; no exception thrown.", .lit "\n"])).tryCatch fun t =>
    if error t then some (cout [.lit "caught ", .src l 1, .lit " as expected\n", .lit "\n"])
    else match t with
      | .std n => some <|
        count ;;
        cout [.lit "\nERROR: caught exception ", .what (.std n), .lit "; expected ", .src l 1, .lit "\n"] ;;
        cerr (here l ++ [.lit "caught exception ", .what (.std n), .lit "; expected ", .src l 1, .lit "\n"])
      | .other _ => none

/-- Lines 498-510 `HELPER_TEST_FAIL(statement)`. -/
def failT (l : Nat) (statement : MT σ V Unit) : MT σ V Unit :=
  cout [.src l 0, .lit ": "] ;;
  (statement ;; count ;;
    cout [.lit "\nERROR: expected exception; none thrown\n"] ;;
    cerr (here l ++ [.lit "expected exception; no exception thrown.", .lit "\n"])).tryCatch fun _ =>
    some (cout [.lit "caught exception as expected\n", .lit "\n"])

/-- Lines 515-527 `HELPER_TEST_STATIC_ASSERT(...)`, 531-543 `HELPER_TEST_CONCEPT(...)`, 549-561
`HELPER_TEST_SAME_TYPE(...)`. -/
inductive Static where
  | assertion | concept_ | sameType
deriving DecidableEq, Repr

def Static.title (l : Nat) : Static → List (Tok V)
  | .sameType => [.lit "Same<", .src l 0, .lit ">: "]
  | _ => [.src l 0, .lit ": "]

def Static.msg (l : Nat) : Static → List (Tok V)
  | .assertion => [.lit "Static assertion `", .src l 0, .lit "' failed."]
  | .concept_ => [.lit "Concept `", .src l 0, .lit "' failed."]
  | .sameType => [.lit "Static assertion `Same<", .src l 0, .lit ">' failed.", .lit " First type is ", .type l]

def staticAssertT (k : Static) (l : Nat) (result : Bool) : MT σ V Unit :=
  cout (k.title l) ;;
  if result then cout [.lit "true\n", .lit "\n"]
  else count ;;
    (fun w => cout ([.lit "false\n", .lit "\n"] ++ hereF l ++ [.cls w.io.cls, .lit ": "] ++ k.msg l ++ [.lit "\n", .lit "\n"]) w) ;;
    (fun w => cerr (hereF l ++ [.cls w.io.cls, .lit ": "] ++ k.msg l ++ [.lit "\n"]) w)

/-- A test program with the sites of its macros. -/
inductive TStmt (σ V : Type) where
  | code (e : Exp σ Unit)
  | seq (a b : TStmt σ V)
  | ite (c : Exp σ Bool) (a b : TStmt σ V)
  /-- a loop whose number of iterations is known when it starts -/
  | loop (n : σ → Nat) (a : TStmt σ V)
  | testClass (l : Nat) (a : TStmt σ V)
  | title (e : Exp σ V)
  | comment (e : Exp σ V)
  | warn (e : Exp σ V)
  | notify (e : Exp σ V)
  | call (l : Nat) (a : TStmt σ V)
  | skip (l : Nat)
  | execute (l : Nat) (a : TStmt σ V)
  | try_ (l : Nat) (a : TStmt σ V)
  | print (l : Nat) (e : Exp σ V)
  | evaluate (l : Nat) (e : Exp σ V)
  | assert (l : Nat) (e : Exp σ Bool)
  | checkWarn (l : Nat) (eq : V → V → Exp σ Bool) (e x : Exp σ V)
  | check (l : Nat) (eq : V → V → Exp σ Bool) (e x : Exp σ V)
  | same (l : Nat) (eq : V → V → Exp σ Bool) (e1 e2 : Exp σ V)
  | sameAs (l : Nat) (eq : V → V → Exp σ Bool) (e x : Exp σ V)
  | equal (l : Nat) (eq : V → V → Exp σ Bool) (e1 e2 : Exp σ V)
  | notEqual (l : Nat) (eq : V → V → Exp σ Bool) (e1 e2 : Exp σ V)
  | equals (l : Nat) (eq : V → V → Exp σ Bool) (e x : Exp σ V)
  | within (l : Nat) (dist : V → V → Exp σ V) (le : V → V → Exp σ Bool) (e x tol : Exp σ V)
  | less (l : Nat) (lt : V → V → Exp σ Bool) (e x : Exp σ V)
  | unaryPredicate (l : Nat) (p : V → Exp σ Bool) (a : Exp σ V)
  | binaryPredicate (l : Nat) (p : V → V → Exp σ Bool) (a1 a2 : Exp σ V)
  | compare (l : Nat) (cmp : V → V → Exp σ Bool) (e x : Exp σ V)
  | resultCompare (l : Nat) (cmp : V → V → Exp σ Bool) (e x : Exp σ V)
  | declare (h : How) (l : Nat) (c : Exp σ V)
  | construct (withText : Bool) (l : Nat) (c : Exp σ V)
  | assign (l : Nat) (a : Exp σ V)
  | throws (l : Nat) (error : Thrown → Bool) (a : TStmt σ V)
  | fail (l : Nat) (a : TStmt σ V)
  | staticAssert (k : Static) (l : Nat) (b : Bool)

def loopT (m : MT σ V Unit) : Nat → MT σ V Unit
  | 0 => MT.pure ()
  | n + 1 => m.bind fun _ => loopT m n

/-- Execution of a test program. -/
def execT (rtl : Bool) : TStmt σ V → MT σ V Unit
  | .code e => MT.lift e
  | .seq a b => (execT rtl a).bind fun _ => execT rtl b
  | .ite c a b => (MT.lift c).bind fun r => if r then execT rtl a else execT rtl b
  | .loop n a => fun w => loopT (execT rtl a) (n w.w.u) w
  | .testClass l a => testClassT l (execT rtl a)
  | .title e => titleT e
  | .comment e => commentT e
  | .warn e => warnT "WARNING: " e
  | .notify e => warnT "NOTIFICATION: " e
  | .call l a => callT l (execT rtl a)
  | .skip l => skipT l
  | .execute l a => executeT l (execT rtl a)
  | .try_ l a => tryT l (execT rtl a)
  | .print l e => printT l e
  | .evaluate l e => evaluateT l e
  | .assert l e => assertT l e
  | .checkWarn l eq e x => checkWarnT l rtl eq e x
  | .check l eq e x => checkT l rtl eq e x
  | .same l eq e1 e2 => sameT l rtl eq e1 e2
  | .sameAs l eq e x => sameAsT l rtl eq e x
  | .equal l eq e1 e2 => equalT l rtl eq e1 e2
  | .notEqual l eq e1 e2 => notEqualT l rtl eq e1 e2
  | .equals l eq e x => equalsT l rtl eq e x
  | .within l d le e x t => withinT l rtl d le e x t
  | .less l lt e x => lessT l rtl lt e x
  | .unaryPredicate l p a => unaryPredicateT l p a
  | .binaryPredicate l p a1 a2 => binaryPredicateT l rtl p a1 a2
  | .compare l c e x => compareT l rtl c e x
  | .resultCompare l c e x => resultCompareT l c e x
  | .declare h l c => declareT h l c
  | .construct b l c => constructT b l c
  | .assign l a => assignT l a
  | .throws l err a => throwsT l err (execT rtl a)
  | .fail l a => failT l (execT rtl a)
  | .staticAssert k l b => staticAssertT k l b

/-- The program without its texts. -/
def TStmt.erase : TStmt σ V → Stmt σ V
  | .code e => .code e
  | .seq a b => .seq a.erase b.erase
  | .ite c a b => .ite c a.erase b.erase
  | .loop n a => .loop n a.erase
  | .testClass _ a => .testClass a.erase
  | .title e => .print e
  | .comment e => .print e
  | .warn e => .seq (.print e) (.print e)
  | .notify e => .seq (.print e) (.print e)
  | .call _ a => .call a.erase
  | .skip _ => .skip
  | .execute _ a => .execute a.erase
  | .try_ _ a => .try_ a.erase
  | .print _ e => .print e
  | .evaluate _ e => .evaluate e
  | .assert _ e => .assert e
  | .checkWarn _ eq e x => .checkWarn eq e x
  | .check _ eq e x => .check eq e x
  | .same _ eq e1 e2 => .same eq e1 e2
  | .sameAs _ eq e x => .sameAs eq e x
  | .equal _ eq e1 e2 => .equal eq e1 e2
  | .notEqual _ eq e1 e2 => .notEqual eq e1 e2
  | .equals _ eq e x => .equals eq e x
  | .within _ d le e x t => .within d le e x t
  | .less _ lt e x => .less lt e x
  | .unaryPredicate _ p a => .unaryPredicate p a
  | .binaryPredicate _ p a1 a2 => .binaryPredicate p a1 a2
  | .compare _ c e x => .compare c e x
  | .resultCompare _ c e x => .resultCompare c e x
  | .declare _ _ c => .declare (c.bind fun _ => .pure ())
  | .construct _ _ c => .construct (c.bind fun _ => .pure ())
  | .assign _ a => .assign (a.bind fun _ => .pure ())
  | .throws _ err a => .throws err a.erase
  | .fail _ a => .fail a.erase
  | .staticAssert _ _ b => .staticAssert b

end Helper.TestC
