/-!
# Names declared by the macros (macros.hpp:49-176, test.hpp:76-96, 165-398)

The macros declare variables (`ss`, `assertion_result`, `result`, `first_time`, `ok`, `error`) in the scope in which
their arguments are evaluated. Here arguments are expressions with names, looked up in the innermost scope that declares them.
Values are integers (`bool` as 0 and 1), expressions have no effects and do not throw. Missing parentheses around arguments
are not considered (see C92, C93), nor names of functions and variables outside the macros (`abs`, `same`).
-/
namespace Helper.Names

abbrev Name := String

/-- Expressions of the user. `op` is any operator that evaluates both operands, `call1 f a` is `f(a)`. -/
inductive Ex where
  | lit (n : Int)
  | var (x : Name)
  | op (f : Int → Int → Int) (a b : Ex)
  | and_ (a b : Ex)
  | call1 (f : Name) (a : Ex)
  | call2 (f : Name) (a b : Ex)

/-- What is written with `<<`: a string literal, the value of an expression, or `x.str()`. -/
inductive Piece where
  | lit (s : String)
  | ex (e : Ex)
  | str (x : Name)

/-- Kinds of declared names. `auto` is a variable declared with `auto` inside its own initialiser. -/
inductive Kind where
  | num | auto | stream | fn1 | fn2
deriving DecidableEq, Repr

/-- What a name stands for at run time; `num none` has an indeterminate value. -/
inductive Cell where
  | num (v : Option Int)
  | auto
  | stream (t : String)
  | fn1 (g : Int → Int)
  | fn2 (g : Int → Int → Int)

def Cell.kind : Cell → Kind
  | .num _ => .num
  | .auto => .auto
  | .stream _ => .stream
  | .fn1 _ => .fn1
  | .fn2 _ => .fn2

/-- The innermost declaration comes first. -/
abbrev Env := List (Name × Cell)
abbrev Ctx := List (Name × Kind)

def ctx (env : Env) : Ctx := env.map fun p => (p.1, p.2.kind)

/-- The expression compiles: names of variables are numbers, names of functions are functions. An `auto` variable must not be
used in its own initialiser ([dcl.spec.auto]), a stream is not a number, and only functions can be called; an inner variable hides
an outer function ([basic.scope.hiding], [basic.lookup.argdep]). -/
def Ex.ok (Γ : Ctx) : Ex → Bool
  | .lit _ => true
  | .var x => Γ.lookup x == some .num
  | .op _ a b => a.ok Γ && b.ok Γ
  | .and_ a b => a.ok Γ && b.ok Γ
  | .call1 f a => Γ.lookup f == some .fn1 && a.ok Γ
  | .call2 f a b => Γ.lookup f == some .fn2 && a.ok Γ && b.ok Γ

/-- The value; `none` is undefined behaviour: an indeterminate value is read. -/
def Ex.eval (env : Env) : Ex → Option Int
  | .lit n => some n
  | .var x => match env.lookup x with
    | some (.num v) => v
    | _ => none
  | .op f a b => match a.eval env with
    | some v => match b.eval env with
      | some w => some (f v w)
      | none => none
    | none => none
  | .and_ a b => match a.eval env with
    | some v => if v = 0 then some 0 else
      match b.eval env with
      | some w => some (if w = 0 then 0 else 1)
      | none => none
    | none => none
  | .call1 f a => match env.lookup f with
    | some (.fn1 g) => match a.eval env with
      | some v => some (g v)
      | none => none
    | _ => none
  | .call2 f a b => match env.lookup f with
    | some (.fn2 g) => match a.eval env with
      | some v => match b.eval env with
        | some w => some (g v w)
        | none => none
      | none => none
    | _ => none

/-- A stream cannot be written to a stream. -/
def Piece.ok (Γ : Ctx) : Piece → Bool
  | .lit _ => true
  | .ex e => e.ok Γ
  | .str x => Γ.lookup x == some .stream

def Piece.text (env : Env) : Piece → Option String
  | .lit s => some s
  | .ex e => match e.eval env with
    | some v => some (toString v)
    | none => none
  | .str x => match env.lookup x with
    | some (.stream t) => some t
    | _ => none

/-- How the initial value of a variable is converted: `bool x = e`, `auto x = e`, `Type x = e`. -/
inductive Init where
  | bool | auto | typed
deriving DecidableEq, Repr

def Init.kind : Init → Kind
  | .auto => .auto
  | _ => .num

/-- The variable inside its initialiser: its scope begins before it ([basic.scope.pdecl]). -/
def Init.cell : Init → Cell
  | .auto => .auto
  | _ => .num none

def Init.conv : Init → Int → Int
  | .bool, v => if v = 0 then 0 else 1
  | _, v => v

mutual
/-- Statements in the macros. `raise x` is `throw E(x.str())`; `fail` is `++HELPER_TEST_FAILURES`. -/
inductive Stm where
  | put (x : Name) (ps : List Piece)
  | raise (x : Name)
  | out (ps : List Piece)
  | err (ps : List Piece)
  | fail
  | assign (x : Name) (n : Int)
  | ite (e : Ex) (t f : Stms)
  | block (b : Stms)
/-- Statements of a block; the scope of a declaration is the rest of the block. `stream x` is `std::ostringstream x;`. -/
inductive Stms where
  | nil
  | cons (s : Stm) (l : Stms)
  | decl (i : Init) (x : Name) (e : Ex) (l : Stms)
  | stream (x : Name) (l : Stms)
end

mutual
/-- The statement compiles. -/
def Stm.ok : Stm → Ctx → Bool
  | .put x ps, Γ => Γ.lookup x == some .stream && ps.all (·.ok Γ)
  | .raise x, Γ => Γ.lookup x == some .stream
  | .out ps, Γ => ps.all (·.ok Γ)
  | .err ps, Γ => ps.all (·.ok Γ)
  | .fail, _ => true
  | .assign x _, Γ => Γ.lookup x == some .num
  | .ite e t f, Γ => e.ok Γ && t.ok Γ && f.ok Γ
  | .block b, Γ => b.ok Γ
def Stms.ok : Stms → Ctx → Bool
  | .nil, _ => true
  | .cons s l, Γ => s.ok Γ && l.ok Γ
  | .decl i x e l, Γ => e.ok ((x, i.kind) :: Γ) && l.ok ((x, .num) :: Γ)
  | .stream x l, Γ => l.ok ((x, .stream) :: Γ)
end

/-- The variables, the texts written to `std::cout` and `std::cerr`, and `HELPER_TEST_FAILURES`. -/
structure St where
  env : Env
  out : List String
  err : List String
  fails : Nat

/-- How a use of a macro ends: it does not compile, is undefined, throws `std::runtime_error` or another exception with the text, or
ends normally. -/
inductive R where
  | ill
  | ub
  | thrown (t : String)
  | done (st : St)

def set : Env → Name → Cell → Env
  | [], _, _ => []
  | (y, d) :: env, x, c => if y = x then (y, c) :: env else (y, d) :: set env x c

/-- `x << p << …`: the parts are written one after the other ([expr.shift]). -/
def putAll (x : Name) : List Piece → Env → Option Env
  | [], env => some env
  | p :: ps, env => match p.text env, env.lookup x with
    | some s, some (.stream t) => putAll x ps (set env x (.stream (t ++ s)))
    | _, _ => none

def texts (env : Env) : List Piece → Option (List String)
  | [] => some []
  | p :: ps => match p.text env, texts env ps with
    | some s, some l => some (s :: l)
    | _, _ => none

mutual
def Stm.run : Stm → St → R
  | .put x ps, st => match putAll x ps st.env with
    | some env => .done { st with env := env }
    | none => .ub
  | .raise x, st => match st.env.lookup x with
    | some (.stream t) => .thrown t
    | _ => .ub
  | .out ps, st => match texts st.env ps with
    | some l => .done { st with out := st.out ++ l }
    | none => .ub
  | .err ps, st => match texts st.env ps with
    | some l => .done { st with err := st.err ++ l }
    | none => .ub
  | .fail, st => .done { st with fails := st.fails + 1 }
  | .assign x n, st => .done { st with env := set st.env x (.num (some n)) }
  | .ite e t f, st => match e.eval st.env with
    | some v => if v = 0 then f.run st else t.run st
    | none => .ub
  | .block b, st => b.run st
def Stms.run : Stms → St → R
  | .nil, st => .done st
  | .cons s l, st => match s.run st with
    | .done st' => l.run st'
    | r => r
  | .decl i x e l, st => match e.eval ((x, i.cell) :: st.env) with
    | some v => match l.run { st with env := (x, .num (some (i.conv v))) :: st.env } with
      | .done st' => .done { st' with env := st'.env.tail }
      | r => r
    | none => .ub
  | .stream x l, st => match l.run { st with env := (x, .stream "") :: st.env } with
    | .done st' => .done { st' with env := st'.env.tail }
    | r => r
end

/-! ## The macros -/

/-- Where a macro is used: the text of `__FILE__<<":"<<__LINE__<<": "<<__FUNCTION__` (or `HELPER_PRETTY_FUNCTION`), and how expressions
are written. -/
structure Site where
  loc : String
  src : Ex → String

def one (s : Stm) : Stms := .cons s .nil

/-- Lines macros.hpp:49-54 `HELPER_THROW`. -/
def throwBody (ex : String) (func msg : List Piece) : Stm :=
  .block (.stream "ss" (.cons (.put "ss" ([.lit (ex ++ " in ")] ++ func ++ [.lit ": "] ++ msg)) (one (.raise "ss"))))

/-- The macros that throw unless a condition holds: `x` is the variable that keeps the result (macros.hpp:56-142). -/
def guardBody (x : Name) (s : Site) (e : Ex) (msg : List Piece) : Stm :=
  .block (.decl .bool x e (one (.ite (.var x) .nil (one (throwBody "std::runtime_error" [.lit s.loc] msg)))))

def eqF : Int → Int → Int := fun a b => if a = b then 1 else 0
def ltF : Int → Int → Int := fun a b => if a < b then 1 else 0
def leF : Int → Int → Int := fun a b => if a ≤ b then 1 else 0
def distF : Int → Int → Int := fun a b => (a - b).natAbs

/-- The text `` word `expression' failed. ``. -/
def failedText (s : Site) (word : String) (e : Ex) : List Piece := [.lit (word ++ " `"), .lit (s.src e), .lit "' failed."]

/-- The macros with arguments that are evaluated. -/
inductive Mac where
  | throw_ (ex : String) (func msg : List Piece)
  | assert (e : Ex)
  | assertMsg (e : Ex) (m : List Piece)
  | debugAssert (e : Ex)
  | debugAssertMsg (e : Ex) (m : List Piece)
  | precondition (e : Ex)
  | preconditionMsg (e : Ex) (m : List Piece)
  | debugPrecondition (e : Ex)
  | failMsg (m : List Piece)
  | assertEqual (a b : Ex)
  | notify (m : List Piece)
  | warn (m : List Piece)
  | error (m : List Piece)
  /-- `seen`: the place was reached before. -/
  | warnOnce (seen : Bool) (m : List Piece)
  | tAssert (e : Ex)
  | tCheck (a b : Ex)
  | tCheckWarn (a b : Ex)
  /-- `f` is the function `same` of the user. -/
  | tSame (f : Int → Int → Int) (a b : Ex)
  | tSameAs (f : Int → Int → Int) (a b : Ex)
  | tEqual (a b : Ex)
  | tNotEqual (a b : Ex)
  | tEquals (a b : Ex)
  | tWithin (a b t : Ex)
  | tLess (a b : Ex)
  | tUnary (p : Name) (a : Ex)
  | tBinary (p : Name) (a b : Ex)
  | tCompare (f : Int → Int → Int) (a b : Ex)
  | tResultCompare (f : Int → Int → Int) (a b : Ex)
  | tPrint (e : Ex)
  | tComment (m : List Piece)
  | tWarn (m : List Piece)

/-- `++HELPER_TEST_FAILURES` and the values written to `std::cout` and `std::cerr`. -/
def report (o e : List Piece) : Stms := .cons .fail (.cons (.out o) (one (.err e)))

/-- The texts of the macros. Constant texts are left out for the test macros (see C91) and `HELPER_NOTIFY` and the like. The
debugging macros are those without `NDEBUG`. -/
def Mac.body (s : Site) : Mac → Stm
  /- macros.hpp:49-54 -/
  | .throw_ ex func msg => throwBody ex func msg
  /- macros.hpp:56-62 -/
  | .assert e => guardBody "assertion_result" s e (failedText s "Assertion" e)
  /- macros.hpp:130-136 -/
  | .assertMsg e m => guardBody "assertion_result" s e (failedText s "Assertion" e ++ [.lit "\n", .lit "  "] ++ m)
  /- macros.hpp:80-92 -/
  | .debugAssert e => guardBody "assertion_result" s e (failedText s "Assertion" e)
  /- macros.hpp:65-77 -/
  | .debugAssertMsg e m => guardBody "assertion_result" s e (failedText s "Assertion" e ++ [.lit "\n", .lit "  "] ++ m)
  /- macros.hpp:103-109 -/
  | .precondition e => guardBody "assertion_result" s e (failedText s "Precondition" e)
  /- macros.hpp:95-101 -/
  | .preconditionMsg e m => guardBody "assertion_result" s e (failedText s "Precondition" e ++ [.lit "\n", .lit "  "] ++ m)
  /- macros.hpp:111-123 -/
  | .debugPrecondition e => guardBody "result" s e (failedText s "Precondition" e)
  /- macros.hpp:125-128 -/
  | .failMsg m => .block (one (throwBody "std::runtime_error" [.lit s.loc] ([.lit "ErrorTag "] ++ m)))
  /- macros.hpp:138-144 -/
  | .assertEqual a b => guardBody "assertion_result" s (.op eqF a b)
      ([.lit "Assertion `", .lit (s.src a), .lit "==", .lit (s.src b), .lit "' failed.\n", .lit "  ", .ex a, .lit " != ", .ex b])
  /- macros.hpp:156-159 -/
  | .notify m => .block (one (.err m))
  /- macros.hpp:161-164 -/
  | .warn m => .block (one (.err m))
  /- macros.hpp:173-176 -/
  | .error m => .block (one (.err m))
  /- macros.hpp:166-171; the static variable keeps its value from the last time -/
  | .warnOnce seen m => .block (.decl .bool "first_time" (.lit (if seen then 0 else 1))
      (one (.ite (.var "first_time") (.cons (.assign "first_time" 0) (one (.err m))) .nil)))
  /- test.hpp:184-195 -/
  | .tAssert e => .block (.decl .auto "result" e (one (.ite (.var "result") .nil (one .fail))))
  /- test.hpp:213-224; `testing_check` writes the first value, which is done here after the comparison: both read the variable in the
  same cases -/
  | .tCheck a b => .block (.decl .bool "ok" (.op eqF a b) (.cons (.out [.ex a]) (one (.ite (.var "ok") .nil (report [.ex b] [.ex a])))))
  /- test.hpp:199-209 -/
  | .tCheckWarn a b => .block (.decl .bool "ok" (.op eqF a b) (.cons (.out [.ex a]) (one (.ite (.var "ok") .nil
      (.cons (.out [.ex b]) (one (.err [.ex a])))))))
  /- test.hpp:228-240 -/
  | .tSame f a b => .block (.decl .bool "ok" (.op f a b) (one (.ite (.var "ok") .nil (report [.ex a, .ex b] [.ex a, .ex b]))))
  /- test.hpp:243-256 -/
  | .tSameAs f a b => .block (.decl .bool "ok" (.op f a b) (one (.ite (.var "ok") .nil (report [.ex a] [.ex a, .ex b]))))
  /- test.hpp:260-272 -/
  | .tEqual a b => .block (.decl .bool "ok" (.op eqF a b) (one (.ite (.var "ok") .nil (report [.ex a, .ex b] [.ex a, .ex b]))))
  /- test.hpp:275-287 -/
  | .tNotEqual a b => .block (.decl .bool "ok" (.op eqF a b) (one (.ite (.var "ok") (report [.ex a, .ex b] [.ex a, .ex b]) .nil)))
  /- test.hpp:290-303 -/
  | .tEquals a b => .block (.decl .bool "ok" (.op eqF a b) (one (.ite (.var "ok") .nil (report [.ex a] [.ex a, .ex b]))))
  /- test.hpp:306-322 -/
  | .tWithin a b t => .block (.decl .auto "error" (.op distF a b) (.decl .bool "ok" (.op leF (.var "error") t)
      (one (.ite (.var "ok") .nil (report [.ex a, .ex b, .ex (.var "error"), .ex t] [.ex a, .ex b, .ex (.var "error"), .ex t])))))
  /- test.hpp:326-337 -/
  | .tLess a b => .block (.decl .bool "ok" (.op ltF a b) (one (.ite (.var "ok") .nil (report [.ex a] [.ex a]))))
  /- test.hpp:341-352 -/
  | .tUnary p a => .block (.cons (.out [.ex a]) (.decl .bool "ok" (.call1 p a) (one (.ite (.var "ok") .nil (report [] [.ex a])))))
  /- test.hpp:356-367 -/
  | .tBinary p a b => .block (.cons (.out [.ex a, .ex b]) (.decl .bool "ok" (.call2 p a b)
      (one (.ite (.var "ok") .nil (report [] [.ex a, .ex b])))))
  /- test.hpp:371-382 -/
  | .tCompare f a b => .block (.cons (.out [.ex a]) (.decl .bool "ok" (.op f a b)
      (one (.ite (.var "ok") (one (.out [.ex b])) (report [.ex b] [.ex a, .ex b])))))
  /- test.hpp:386-398 -/
  | .tResultCompare f a b => .block (.decl .typed "result" a (.cons (.out [.ex (.var "result")]) (.decl .bool "ok" (.op f (.var "result") b)
      (one (.ite (.var "ok") (one (.out [.ex b])) (report [] [.ex (.var "result"), .ex b]))))))
  /- test.hpp:165-169 -/
  | .tPrint e => .block (one (.out [.ex e]))
  /- test.hpp:76-80 -/
  | .tComment m => .block (one (.out m))
  /- test.hpp:84-96; also `HELPER_TEST_NOTIFY` -/
  | .tWarn m => .block (.cons (.out m) (one (.err m)))

/-- A use of a macro. -/
def Mac.use (s : Site) (k : Mac) (st : St) : R :=
  if (k.body s).ok (ctx st.env) then (k.body s).run st else .ill

end Helper.Names
