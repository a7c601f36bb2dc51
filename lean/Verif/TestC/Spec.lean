import Verif.TestC.Model
/-!
# What the test macros should do

The spec has no counter. It tells which checks a test program makes, whether each failed, and which calls were ended by a
standard exception.
-/
namespace Helper.TestC.Spec

open Helper.Macro

variable {σ V α β : Type}

/-- A run: failed checks, calls ended by a standard exception, skipped calls, how it ended and the state at the end. -/
structure Run (σ : Type) where
  failed : Nat
  ended : Nat
  skipped : Nat
  out : Out Unit
  u : σ

abbrev S (σ : Type) := σ → Run σ

/-- Code without checks. -/
def plain (e : Exp σ Unit) : S σ := fun s => ⟨0, 0, 0, (e s).1, (e s).2⟩

/-- One after the other, unless the first throws. -/
def andThen (a b : S σ) : S σ := fun s =>
  let r := a s
  match r.out with
  | .thrown _ => r
  | .val _ =>
    let r' := b r.u
    ⟨r.failed + r'.failed, r.ended + r'.ended, r.skipped + r'.skipped, r'.out, r'.u⟩

/-- Evaluate and forget. -/
def ev (e : Exp σ α) : Exp σ Unit := fun s =>
  match e s with
  | (.val _, s') => (.val (), s')
  | (.thrown t, s') => (.thrown t, s')

/-- Evaluate one after the other. -/
def evs : List (Exp σ Unit) → Exp σ Unit
  | [] => fun s => (.val (), s)
  | e :: es => fun s =>
    match e s with
    | (.val _, s') => evs es s'
    | r => r

/-- A check: `verdict` tells whether it passes; then some expressions are evaluated for the messages. If the
evaluation of the verdict throws there is no verdict. -/
def chk (verdict : Exp σ Bool) (ifOk ifFail : List (Exp σ Unit)) : S σ := fun s =>
  match verdict s with
  | (.thrown t, s') => ⟨0, 0, 0, .thrown t, s'⟩
  | (.val true, s') => plain (evs ifOk) s'
  | (.val false, s') => { plain (evs ifFail) s' with failed := 1 }

/-- The code should not throw; any exception is a failed check and goes no further. -/
def noThrow (a : S σ) : S σ := fun s =>
  match a s with
  | ⟨f, e, k, .thrown _, u⟩ => ⟨f + 1, e, k, .val (), u⟩
  | r => r

/-- A call of a test function: a standard exception ends the call only. -/
def callS (a : S σ) : S σ := fun s =>
  match a s with
  | ⟨f, e, k, .thrown (.std _), u⟩ => ⟨f, e + 1, k, .val (), u⟩
  | r => r

/-- The code should throw an exception of the type `error`: no exception and another standard exception are failures. -/
def throwsS (error : Thrown → Bool) (a : S σ) : S σ := fun s =>
  match a s with
  | ⟨f, e, k, .val _, u⟩ => ⟨f + 1, e, k, .val (), u⟩
  | ⟨f, e, k, .thrown t, u⟩ =>
    if error t then ⟨f, e, k, .val (), u⟩
    else match t with
      | .std _ => ⟨f + 1, e, k, .val (), u⟩
      | .other n => ⟨f, e, k, .thrown (.other n), u⟩

/-- The code should throw something. -/
def failS (a : S σ) : S σ := fun s =>
  match a s with
  | ⟨f, e, k, .val _, u⟩ => ⟨f + 1, e, k, .val (), u⟩
  | ⟨f, e, k, .thrown _, u⟩ => ⟨f, e, k, .val (), u⟩

def times (a : S σ) : Nat → S σ
  | 0 => plain (evs [])
  | n + 1 => andThen a (times a n)

/-- The operands, each evaluated once, stand in the relation. -/
def rel (rtl : Bool) (r : V → V → Exp σ Bool) (e x : Exp σ V) : Exp σ Bool :=
  (Exp.both rtl e x).bind fun p => r p.1 p.2

def run (rtl : Bool) : Stmt σ V → S σ
  | .code e => plain e
  | .seq a b => andThen (run rtl a) (run rtl b)
  | .ite c a b => fun s =>
    match c s with
    | (.val true, s') => run rtl a s'
    | (.val false, s') => run rtl b s'
    | (.thrown t, s') => ⟨0, 0, 0, .thrown t, s'⟩
  | .loop n a => fun s => times (run rtl a) (n s) s
  | .testClass a => run rtl a
  | .call a => callS (run rtl a)
  | .skip => fun s => ⟨0, 0, 1, .val (), s⟩
  | .execute a => run rtl a
  | .try_ a => noThrow (run rtl a)
  | .print e => plain (ev e)
  | .evaluate e => noThrow (plain (ev e))
  | .assert e => chk e [] []
  | .checkWarn eq e x => fun s =>
    match rel rtl eq e x s with
    | (.val true, s') => plain (evs []) s'
    | (.val false, s') => plain (evs [ev x, ev e]) s'
    | (.thrown t, s') => ⟨0, 0, 0, .thrown t, s'⟩
  | .check eq e x => chk (rel rtl eq e x) [] [ev x, ev e]
  | .same eq e1 e2 => chk (rel rtl eq e1 e2) [] [ev e1, ev e2, ev e1, ev e2]
  | .sameAs eq e x => chk (rel rtl eq e x) [] [ev e, ev e, ev x]
  | .equal eq e1 e2 => chk (rel rtl eq e1 e2) [] [ev e1, ev e2, ev e1, ev e2]
  | .notEqual eq e1 e2 => chk ((rel rtl eq e1 e2).bind fun b => .pure (!b)) [] [ev e1, ev e2, ev e1, ev e2]
  | .equals eq e x => chk (rel rtl eq e x) [] [ev e, ev e, ev x]
  | .within dist le e x tol =>
    chk (((Exp.both rtl e x).bind fun p => dist p.1 p.2).bind fun d => tol.bind fun t => le d t) []
      [ev e, ev x, ev tol, ev e, ev x, ev tol]
  | .less lt e x => chk (rel rtl lt e x) [] [ev e, ev e]
  | .unaryPredicate p a => chk ((ev a).bind fun _ => a.bind p) [] [ev a]
  | .binaryPredicate p a1 a2 => chk ((evs [ev a1, ev a2]).bind fun _ => rel rtl p a1 a2) [] [ev a1, ev a2]
  | .compare c e x => chk ((ev e).bind fun _ => rel rtl c e x) [ev x] [ev x, ev e, ev x]
  | .resultCompare c e x => chk (e.bind fun a => x.bind fun b => c a b) [ev x] [ev x]
  | .declare c => andThen (noThrow (plain c)) (plain c)
  | .construct c => plain c
  | .assign a => noThrow (plain a)
  | .throws error a => throwsS error (run rtl a)
  | .fail a => failS (run rtl a)
  | .staticAssert b => chk (.pure b) [] []

/-- What the failure counter should count. -/
def Run.total (r : Run σ) : Nat := r.failed + r.ended

end Helper.TestC.Spec
