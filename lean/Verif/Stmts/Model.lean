/-!
# Statement macros as text (macros.hpp:49-176, test.hpp:90-600)

The macros of `macros.hpp` and `test.hpp` stand where a statement is expected, but expand to a block, to a statement with its semicolon or to
several statements. Here a function body is a sequence of tokens, macros are replaced by their tokens, and the result is
read by the statement grammar of C++ ([stmt.stmt]). Expressions are opaque: conditions and statements of the user are
numbers that are given a meaning by `User`. Loops, `return` and declarations other than that of `first_time` are left
out; no user code declares or uses the name `first_time`, and user code does not throw.
-/
namespace Helper.Stmts

/-- Conditions: of the user, negated, or the variable `first_time`. -/
inductive Cond where
  | usr (c : Nat)
  | notUsr (c : Nat)
  | flag
deriving DecidableEq, Repr

/-- Statements that are neither compound nor declarations: an expression of the user, `first_time=false;`, writing a message,
throwing an exception with a message. -/
inductive Act where
  | usr (a : Nat)
  | clear
  | emit (m : String)
  | raise (m : String)
deriving DecidableEq, Repr

/-- Tokens. `act` and `decl` include their semicolon; `decl i` is `static bool first_time=true;` at the place `i` of the source. -/
inductive Tok where
  | lb | rb | semi
  | if_ (c : Cond)
  | else_
  | decl (i : Nat)
  | act (a : Act)
deriving DecidableEq, Repr

/-- The macros. -/
inductive Mac where
  /-- `HELPER_NOTIFY`, `HELPER_WARN`, `HELPER_ERROR` -/
  | note (m : String)
  /-- `HELPER_ASSERT` and the other macros that throw if a condition is false -/
  | check (c : Nat) (m : String)
  /-- `HELPER_FAIL_MSG` -/
  | fail (m : String)
  /-- `HELPER_NOT_IMPLEMENTED` -/
  | notImplemented (m : String)
  /-- `HELPER_WARN_ONCE` and `HELPER_DEPRECATED` at the place `i` -/
  | once (i : Nat) (m : String)
  /-- `HELPER_TEST_ASSERT`, `HELPER_TEST_EQUALS` and the other tests of a condition: the title, the report of a success and of a failure -/
  | test (t : String) (c : Nat) (good bad : String)
  /-- `HELPER_TEST_CONSTRUCT`, `HELPER_TEST_DEFAULT_CONSTRUCT`: the declaration is the user's statement `a` -/
  | construct (a : Nat) (t r : String)
  /-- `HELPER_TEST_DECLARE`, `HELPER_TEST_NAMED_CONSTRUCT`, `HELPER_TEST_ASSIGN_CONSTRUCT` -/
  | declare (a : Nat) (t r : String)
deriving DecidableEq, Repr

/-- Lines 49-54 `HELPER_THROW`; the declaration of the stream and the statement writing to it are left out. -/
def throwToks (m : String) : List Tok := [.lb, .act (.raise m), .rb]

/-- macros.hpp:56-176 and test.hpp: what the macros are replaced by. The variable holding the result of the condition is left out
(macros.hpp:56-142, test.hpp:184-194); counting a failure is part of its report; `try` and its handlers are left out, as user code does not throw
(test.hpp:402-462). -/
def Mac.toks : Mac → List Tok
  | .note m => [.lb, .act (.emit m), .rb]
  | .check c m => [.lb, .if_ (.notUsr c), .lb] ++ throwToks m ++ [.semi, .rb, .rb]
  | .fail m => [.lb] ++ throwToks m ++ [.semi, .rb]
  | .notImplemented m => [.act (.raise m)]
  | .once i m => [.decl i, .if_ .flag, .lb, .act .clear, .act (.emit m), .rb]
  | .test t c g b => [.lb, .act (.emit t), .if_ (.usr c), .lb, .act (.emit g), .rb, .else_, .lb, .act (.emit b), .rb, .rb]
  | .construct a t r => [.act (.emit t), .act (.usr a), .act (.emit r)]
  | .declare a t r => [.lb, .act (.emit t), .act (.usr a), .act (.emit r), .rb, .act (.usr a)]

mutual
/-- A statement as the user means it: a use of a macro, with or without a semicolon after it, is a statement. -/
inductive Src where
  | code (a : Nat)
  | use (k : Mac) (semi : Bool)
  | block (l : Srcs)
  | ifThen (c : Nat) (t : Src)
  | ifElse (c : Nat) (t e : Src)
inductive Srcs where
  | nil
  | cons (s : Src) (l : Srcs)
end

mutual
/-- The text after preprocessing. -/
def Src.toks : Src → List Tok
  | .code a => [.act (.usr a)]
  | .use k b => k.toks ++ if b then [.semi] else []
  | .block l => .lb :: l.toks ++ [.rb]
  | .ifThen c t => .if_ (.usr c) :: t.toks
  | .ifElse c t e => .if_ (.usr c) :: t.toks ++ .else_ :: e.toks
def Srcs.toks : Srcs → List Tok
  | .nil => []
  | .cons s l => s.toks ++ l.toks
end

/-! ## Reading the text -/

mutual
/-- Statements as the compiler reads them. -/
inductive S where
  | empty
  | act (a : Act)
  | decl (i : Nat)
  | block (l : Ss)
  | ifThen (c : Cond) (t : S)
  | ifElse (c : Cond) (t e : S)
inductive Ss where
  | nil
  | cons (s : S) (l : Ss)
end

mutual
/-- Reads a statement; an `else` belongs to the nearest `if` ([stmt.if]). `n` bounds the depth of the recursion. -/
def parseS : Nat → List Tok → Option (S × List Tok)
  | 0, _ => none
  | n + 1, ts =>
    match ts with
    | .semi :: r => some (.empty, r)
    | .act a :: r => some (.act a, r)
    | .decl i :: r => some (.decl i, r)
    | .lb :: r =>
      match parseSs n r with
      | some (l, r') => some (.block l, r')
      | none => none
    | .if_ c :: r =>
      match parseS n r with
      | some (t, .else_ :: r') =>
        match parseS n r' with
        | some (e, r'') => some (.ifElse c t e, r'')
        | none => none
      | some (t, r') => some (.ifThen c t, r')
      | none => none
    | _ => none
/-- Reads statements up to the closing brace. -/
def parseSs : Nat → List Tok → Option (Ss × List Tok)
  | 0, _ => none
  | n + 1, ts =>
    match ts with
    | .rb :: r => some (.nil, r)
    | ts =>
      match parseS n ts with
      | some (s, r) =>
        match parseSs n r with
        | some (l, r') => some (.cons s l, r')
        | none => none
      | none => none
end

/-- Reads the statements of a function body, up to and including the brace that closes it; nothing may follow. -/
def parseBody (ts : List Tok) : Option Ss :=
  match parseSs (2 * ts.length + 2) (ts ++ [.rb]) with
  | some (l, []) => some l
  | _ => none

/-! ## Scopes -/

def Cond.wf (vis : Bool) : Cond → Bool
  | .flag => vis
  | _ => true

def Act.wf (vis : Bool) : Act → Bool
  | .clear => vis
  | _ => true

mutual
/-- Names are declared: `vis` tells whether a variable `first_time` is visible. A substatement of `if` is a scope of its own
([stmt.pre]). -/
def S.wf : S → Bool → Bool
  | .empty, _ => true
  | .act a, vis => a.wf vis
  | .decl _, _ => true
  | .block l, vis => l.wf vis false
  | .ifThen c t, vis => c.wf vis && t.wf vis
  | .ifElse c t e, vis => c.wf vis && t.wf vis && e.wf vis
/-- `here`: the variable is already declared in this block; declaring it again is ill-formed ([basic.scope.block]). -/
def Ss.wf : Ss → Bool → Bool → Bool
  | .nil, _, _ => true
  | .cons (.decl _) l, _, here => !here && l.wf true true
  | .cons s l, vis, here => s.wf vis && l.wf vis here
end

/-! ## Execution -/

/-- The meaning of conditions and expressions of the user. -/
structure User (σ : Type) where
  cond : Nat → σ → Bool
  act : Nat → σ → σ

structure St (σ : Type) where
  u : σ
  /-- The static variable declared at `i` is false. -/
  used : Nat → Bool
  out : List String

variable {σ : Type}

def Cond.eval (P : User σ) (vis : Option Nat) (st : St σ) : Cond → Bool
  | .usr c => P.cond c st.u
  | .notUsr c => !P.cond c st.u
  | .flag => match vis with
    | some i => !st.used i
    | none => false

/-- Executes a simple statement; the result is the message of an exception. -/
def Act.run (P : User σ) (vis : Option Nat) (st : St σ) : Act → Option String × St σ
  | .usr a => (none, { st with u := P.act a st.u })
  | .clear => match vis with
    | some i => (none, { st with used := fun j => if j = i then true else st.used j })
    | none => (none, st)
  | .emit m => (none, { st with out := st.out ++ [m] })
  | .raise m => (some m, st)

mutual
/-- Executes a statement; `vis` is the variable `first_time` that is visible. Static variables are initialised before the program
starts ([stmt.dcl]: constant initialisation). -/
def S.run (P : User σ) : S → Option Nat → St σ → Option String × St σ
  | .empty, _, st => (none, st)
  | .act a, vis, st => a.run P vis st
  | .decl _, _, st => (none, st)
  | .block l, vis, st => l.run P vis st
  | .ifThen c t, vis, st => if c.eval P vis st then t.run P vis st else (none, st)
  | .ifElse c t e, vis, st => if c.eval P vis st then t.run P vis st else e.run P vis st
def Ss.run (P : User σ) : Ss → Option Nat → St σ → Option String × St σ
  | .nil, _, st => (none, st)
  | .cons (.decl i) l, _, st => l.run P (some i) st
  | .cons s l, vis, st =>
    match s.run P vis st with
    | (none, st') => l.run P vis st'
    | r => r
end

/-- A function with the given body: `none` if it does not compile, otherwise what a call does. -/
def Srcs.compile (l : Srcs) : Option Ss :=
  match parseBody l.toks with
  | some b => if b.wf false false then some b else none
  | none => none

end Helper.Stmts
