import Verif.Macro.Exp
/-!
# Model of the test macros (test.hpp:41-581)

The state of a test program is the state `u` of the code under test and the two counters. `HELPER_TEST_FAILURES` is an `int`:
incrementing it beyond 2147483647 is undefined behaviour. Writing to `std::cout` and `std::cerr` and printing values does
not throw and has no effect on the program; the text written is not modelled. Destructors of the objects constructed
by the macros are part of the expressions. `V` are the values of the expressions under test; comparisons are
user code as well. `rtl` is the order of evaluation of operands where the standard leaves it open.
`HELPER_TEST_GRID_TREE_SUBPAVING_ITERATOR` is in `TestC.Grid`; `HELPER_TEST_EQUIVALENT_TYPE` uses a
name the library does not define.
-/
namespace Helper.TestC

open Helper.Macro

variable {σ V α β : Type}

structure W (σ : Type) where
  u : σ
  /-- line 41 -/ fails : Nat
  /-- line 42; its overflow is not modelled -/ skipped : Nat

/-- How a statement of a test program ends; `overflow` is undefined behaviour. -/
inductive R (α : Type) where
  | val (a : α)
  | thrown (t : Thrown)
  | overflow
deriving DecidableEq, Repr

abbrev M (σ α : Type) := W σ → R α × W σ

namespace M

def pure (a : α) : M σ α := fun w => (.val a, w)

def bind (m : M σ α) (f : α → M σ β) : M σ β := fun w =>
  match m w with
  | (.val a, w') => f a w'
  | (.thrown t, w') => (.thrown t, w')
  | (.overflow, w') => (.overflow, w')

/-- User code. -/
def lift (e : Exp σ α) : M σ α := fun w =>
  match e w.u with
  | (.val a, u) => (.val a, { w with u := u })
  | (.thrown t, u) => (.thrown t, { w with u := u })

/-- `try { m } catch ...`: `h t` is the handler that catches `t`, if any. -/
def tryCatch (m : M σ Unit) (h : Thrown → Option (M σ Unit)) : M σ Unit := fun w =>
  match m w with
  | (.thrown t, w') =>
    match h t with
    | some k => k w'
    | none => (.thrown t, w')
  | r => r

end M

/-- `++HELPER_TEST_FAILURES` -/
def incr : M σ Unit := fun w =>
  if w.fails + 1 < 2 ^ 31 then (.val (), { w with fails := w.fails + 1 }) else (.overflow, w)

/-- An expression is evaluated to be printed. -/
def show_ (e : Exp σ α) : M σ Unit := (M.lift e).bind fun _ => M.pure ()

/-- Lines 46-50 `testing_check` and its comparison. -/
def testingCheck (rtl : Bool) (eq : V → V → Exp σ Bool) (e x : Exp σ V) : Exp σ Bool :=
  (Exp.both rtl e x).bind fun p => eq p.1 p.2

/-- Lines 59-66 `HELPER_TEST_CLASS`. -/
def testClass (body : M σ Unit) : M σ Unit := body

/-- Lines 100-110 `HELPER_TEST_CATCH` after a `try` block. -/
def catching (m : M σ Unit) : M σ Unit :=
  m.tryCatch fun t => match t with
    | .std _ => some incr
    | .other _ => some incr

/-- Lines 114-129 `HELPER_TEST_CALL`. -/
def call (function : M σ Unit) : M σ Unit :=
  function.tryCatch fun t => match t with
    | .std _ => some incr
    | .other _ => none

/-- Lines 133-140 `HELPER_TEST_SKIP`. -/
def skip : M σ Unit := fun w => (.val (), { w with skipped := w.skipped + 1 })

/-- Lines 144-149 `HELPER_TEST_EXECUTE`. -/
def execute (statement : M σ Unit) : M σ Unit := statement

/-- Lines 153-161 `HELPER_TEST_TRY`. -/
def try_ (statement : M σ Unit) : M σ Unit := catching statement

/-- Lines 165-169 `HELPER_TEST_PRINT`. -/
def print (e : Exp σ V) : M σ Unit := show_ e

/-- Lines 173-180 `HELPER_TEST_EVALUATE`. -/
def evaluate (e : Exp σ V) : M σ Unit := catching (show_ e)

/-- Lines 184-195 `HELPER_TEST_ASSERT`. -/
def assert (e : Exp σ Bool) : M σ Unit :=
  (M.lift e).bind fun result => if result then M.pure () else incr

/-- Lines 199-209 `HELPER_TEST_CHECK_WARN`. -/
def checkWarn (rtl : Bool) (eq : V → V → Exp σ Bool) (e x : Exp σ V) : M σ Unit :=
  (M.lift (testingCheck rtl eq e x)).bind fun ok =>
    if ok then M.pure () else (show_ x).bind fun _ => show_ e

/-- Lines 213-224 `HELPER_TEST_CHECK`. -/
def check (rtl : Bool) (eq : V → V → Exp σ Bool) (e x : Exp σ V) : M σ Unit :=
  (M.lift (testingCheck rtl eq e x)).bind fun ok =>
    if ok then M.pure () else incr.bind fun _ => (show_ x).bind fun _ => show_ e

/-- Lines 228-240 `HELPER_TEST_SAME`; `same` is user code. -/
def same (rtl : Bool) (same : V → V → Exp σ Bool) (e1 e2 : Exp σ V) : M σ Unit :=
  (M.lift ((Exp.both rtl e1 e2).bind fun p => same p.1 p.2)).bind fun ok =>
    if ok then M.pure ()
    else incr.bind fun _ => (show_ e1).bind fun _ => (show_ e2).bind fun _ => (show_ e1).bind fun _ => show_ e2

/-- Lines 243-256 `HELPER_TEST_SAME_AS`. -/
def sameAs (rtl : Bool) (same : V → V → Exp σ Bool) (e x : Exp σ V) : M σ Unit :=
  (M.lift ((Exp.both rtl e x).bind fun p => same p.1 p.2)).bind fun ok =>
    if ok then M.pure ()
    else incr.bind fun _ => (show_ e).bind fun _ => (show_ e).bind fun _ => show_ x

/-- Lines 260-272 `HELPER_TEST_EQUAL`. -/
def equal (rtl : Bool) (eq : V → V → Exp σ Bool) (e1 e2 : Exp σ V) : M σ Unit :=
  (M.lift ((Exp.both rtl e1 e2).bind fun p => eq p.1 p.2)).bind fun ok =>
    if ok then M.pure ()
    else incr.bind fun _ => (show_ e1).bind fun _ => (show_ e2).bind fun _ => (show_ e1).bind fun _ => show_ e2

/-- Lines 275-287 `HELPER_TEST_NOT_EQUAL`. -/
def notEqual (rtl : Bool) (eq : V → V → Exp σ Bool) (e1 e2 : Exp σ V) : M σ Unit :=
  (M.lift ((Exp.both rtl e1 e2).bind fun p => eq p.1 p.2)).bind fun ok =>
    if ok then incr.bind fun _ => (show_ e1).bind fun _ => (show_ e2).bind fun _ => (show_ e1).bind fun _ => show_ e2
    else M.pure ()

/-- Lines 290-303 `HELPER_TEST_EQUALS`. -/
def equals (rtl : Bool) (eq : V → V → Exp σ Bool) (e x : Exp σ V) : M σ Unit :=
  (M.lift ((Exp.both rtl e x).bind fun p => eq p.1 p.2)).bind fun ok =>
    if ok then M.pure ()
    else incr.bind fun _ => (show_ e).bind fun _ => (show_ e).bind fun _ => show_ x

/-- Lines 306-321 `HELPER_TEST_WITHIN`; `dist` is `abs(e-x)` for arguments that need no parentheses. -/
def within (rtl : Bool) (dist : V → V → Exp σ V) (le : V → V → Exp σ Bool) (e x tol : Exp σ V) : M σ Unit :=
  (M.lift ((Exp.both rtl e x).bind fun p => dist p.1 p.2)).bind fun error =>
    (M.lift (tol.bind fun t => le error t)).bind fun ok =>
      if ok then M.pure ()
      else incr.bind fun _ => (show_ e).bind fun _ => (show_ x).bind fun _ => (show_ tol).bind fun _ =>
        (show_ e).bind fun _ => (show_ x).bind fun _ => show_ tol

/-- Lines 326-337 `HELPER_TEST_LESS`. -/
def less (rtl : Bool) (lt : V → V → Exp σ Bool) (e x : Exp σ V) : M σ Unit :=
  (M.lift ((Exp.both rtl e x).bind fun p => lt p.1 p.2)).bind fun ok =>
    if ok then M.pure () else incr.bind fun _ => (show_ e).bind fun _ => show_ e

/-- Lines 341-352 `HELPER_TEST_UNARY_PREDICATE`. -/
def unaryPredicate (p : V → Exp σ Bool) (a : Exp σ V) : M σ Unit :=
  (show_ a).bind fun _ => (M.lift (a.bind p)).bind fun ok =>
    if ok then M.pure () else incr.bind fun _ => show_ a

/-- Lines 356-367 `HELPER_TEST_BINARY_PREDICATE`. -/
def binaryPredicate (rtl : Bool) (p : V → V → Exp σ Bool) (a1 a2 : Exp σ V) : M σ Unit :=
  (show_ a1).bind fun _ => (show_ a2).bind fun _ =>
    (M.lift ((Exp.both rtl a1 a2).bind fun q => p q.1 q.2)).bind fun ok =>
      if ok then M.pure () else incr.bind fun _ => (show_ a1).bind fun _ => show_ a2

/-- Lines 371-382 `HELPER_TEST_COMPARE`. -/
def compare (rtl : Bool) (cmp : V → V → Exp σ Bool) (e x : Exp σ V) : M σ Unit :=
  (show_ e).bind fun _ => (M.lift ((Exp.both rtl e x).bind fun p => cmp p.1 p.2)).bind fun ok =>
    if ok then show_ x
    else incr.bind fun _ => (show_ x).bind fun _ => (show_ e).bind fun _ => show_ x

/-- Lines 386-398 `HELPER_TEST_RESULT_COMPARE`. -/
def resultCompare (cmp : V → V → Exp σ Bool) (e x : Exp σ V) : M σ Unit :=
  (M.lift e).bind fun result => (M.lift (x.bind fun b => cmp result b)).bind fun ok =>
    if ok then show_ x else incr.bind fun _ => show_ x

/-- Lines 402-411 `HELPER_TEST_DECLARE`, 440-449 `HELPER_TEST_NAMED_CONSTRUCT`, 453-462 `HELPER_TEST_ASSIGN_CONSTRUCT`: the object is
constructed once within the `try` block and again after it. -/
def declare (c : Exp σ Unit) : M σ Unit := (catching (M.lift c)).bind fun _ => M.lift c

/-- Lines 415-418 `HELPER_TEST_CONSTRUCT`, 421-424 `HELPER_TEST_DEFAULT_CONSTRUCT`. -/
def construct (c : Exp σ Unit) : M σ Unit := M.lift c

/-- Lines 465-473 `HELPER_TEST_ASSIGN`. -/
def assign (a : Exp σ Unit) : M σ Unit := catching (M.lift a)

/-- Lines 477-494 `HELPER_TEST_THROWS`; `error` tells which exceptions the handler for the expected type catches. -/
def throws (error : Thrown → Bool) (statement : M σ Unit) : M σ Unit :=
  (statement.bind fun _ => incr).tryCatch fun t =>
    if error t then some (M.pure ())
    else match t with
      | .std _ => some incr
      | .other _ => none

/-- Lines 498-510 `HELPER_TEST_FAIL`. -/
def fail (statement : M σ Unit) : M σ Unit :=
  (statement.bind fun _ => incr).tryCatch fun _ => some (M.pure ())

/-- Lines 515-527 `HELPER_TEST_STATIC_ASSERT`, 531-543 `HELPER_TEST_CONCEPT`, 549-561 `HELPER_TEST_SAME_TYPE`: a constant. -/
def staticAssert (result : Bool) : M σ Unit := if result then M.pure () else incr

/-- A test program. -/
inductive Stmt (σ V : Type) where
  | code (e : Exp σ Unit)
  | seq (a b : Stmt σ V)
  | ite (c : Exp σ Bool) (a b : Stmt σ V)
  /-- a loop whose number of iterations is known when it starts -/
  | loop (n : σ → Nat) (a : Stmt σ V)
  | testClass (a : Stmt σ V)
  | call (a : Stmt σ V)
  | skip
  | execute (a : Stmt σ V)
  | try_ (a : Stmt σ V)
  | print (e : Exp σ V)
  | evaluate (e : Exp σ V)
  | assert (e : Exp σ Bool)
  | checkWarn (eq : V → V → Exp σ Bool) (e x : Exp σ V)
  | check (eq : V → V → Exp σ Bool) (e x : Exp σ V)
  | same (eq : V → V → Exp σ Bool) (e1 e2 : Exp σ V)
  | sameAs (eq : V → V → Exp σ Bool) (e x : Exp σ V)
  | equal (eq : V → V → Exp σ Bool) (e1 e2 : Exp σ V)
  | notEqual (eq : V → V → Exp σ Bool) (e1 e2 : Exp σ V)
  | equals (eq : V → V → Exp σ Bool) (e x : Exp σ V)
  | within (dist : V → V → Exp σ V) (le : V → V → Exp σ Bool) (e x tol : Exp σ V)
  | less (lt : V → V → Exp σ Bool) (e x : Exp σ V)
  | unaryPredicate (p : V → Exp σ Bool) (a : Exp σ V)
  | binaryPredicate (p : V → V → Exp σ Bool) (a1 a2 : Exp σ V)
  | compare (cmp : V → V → Exp σ Bool) (e x : Exp σ V)
  | resultCompare (cmp : V → V → Exp σ Bool) (e x : Exp σ V)
  | declare (c : Exp σ Unit)
  | construct (c : Exp σ Unit)
  | assign (a : Exp σ Unit)
  | throws (error : Thrown → Bool) (a : Stmt σ V)
  | fail (a : Stmt σ V)
  | staticAssert (b : Bool)

def loopM (m : M σ Unit) : Nat → M σ Unit
  | 0 => M.pure ()
  | n + 1 => m.bind fun _ => loopM m n

/-- Execution of a test program. -/
def exec (rtl : Bool) : Stmt σ V → M σ Unit
  | .code e => M.lift e
  | .seq a b => (exec rtl a).bind fun _ => exec rtl b
  | .ite c a b => (M.lift c).bind fun r => if r then exec rtl a else exec rtl b
  | .loop n a => fun w => loopM (exec rtl a) (n w.u) w
  | .testClass a => testClass (exec rtl a)
  | .call a => call (exec rtl a)
  | .skip => skip
  | .execute a => execute (exec rtl a)
  | .try_ a => try_ (exec rtl a)
  | .print e => print e
  | .evaluate e => evaluate e
  | .assert e => assert e
  | .checkWarn eq e x => checkWarn rtl eq e x
  | .check eq e x => check rtl eq e x
  | .same eq e1 e2 => same rtl eq e1 e2
  | .sameAs eq e x => sameAs rtl eq e x
  | .equal eq e1 e2 => equal rtl eq e1 e2
  | .notEqual eq e1 e2 => notEqual rtl eq e1 e2
  | .equals eq e x => equals rtl eq e x
  | .within d le e x t => within rtl d le e x t
  | .less lt e x => less rtl lt e x
  | .unaryPredicate p a => unaryPredicate p a
  | .binaryPredicate p a1 a2 => binaryPredicate rtl p a1 a2
  | .compare c e x => compare rtl c e x
  | .resultCompare c e x => resultCompare c e x
  | .declare c => declare c
  | .construct c => construct c
  | .assign a => assign a
  | .throws err a => throws err (exec rtl a)
  | .fail a => fail (exec rtl a)
  | .staticAssert b => staticAssert b

/-- How the test executable ends. -/
inductive Exit where
  /-- exit status as seen by the parent process -/
  | status (n : Nat)
  /-- `std::terminate` after an uncaught exception: killed by SIGABRT -/
  | aborted
  /-- undefined behaviour -/
  | ub
deriving DecidableEq, Repr

/-- `int main() { ...; return HELPER_TEST_FAILURES; }` (test/test_lru_cache.cpp): the parent sees the low eight bits. -/
def main (rtl : Bool) (p : Stmt σ V) (u : σ) : Exit :=
  match exec rtl p ⟨u, 0, 0⟩ with
  | (.val _, w) => .status (w.fails % 256)
  | (.thrown _, _) => .aborted
  | (.overflow, _) => .ub

end Helper.TestC
