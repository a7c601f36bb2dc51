import Verif.Names.Model
/-!
# What the macros should do: the arguments are evaluated with the variables of the caller
-/
namespace Helper.Names

def Ex.names : Ex → List Name
  | .lit _ => []
  | .var x => [x]
  | .op _ a b => a.names ++ b.names
  | .and_ a b => a.names ++ b.names
  | .call1 f a => f :: a.names
  | .call2 f a b => f :: a.names ++ b.names

def Piece.names : Piece → List Name
  | .lit _ => []
  | .ex e => e.names
  | .str x => [x]

def msgNames (m : List Piece) : List Name := m.flatMap Piece.names

/-- The strings one after the other. -/
def cat : List String → String
  | [] => ""
  | s :: l => s ++ cat l

/-- The value of an expression of the caller. -/
def val (st : St) (e : Ex) (f : Int → R) : R :=
  match e.eval st.env with
  | some v => f v
  | none => .ub

/-- The texts of a message of the caller. -/
def msg (st : St) (m : List Piece) (f : List String → R) : R :=
  match texts st.env m with
  | some l => f l
  | none => .ub

/-- The macro compiles for the caller's variables. -/
def typed (st : St) (es : List Ex) (ps : List Piece) (r : R) : R :=
  if es.all (·.ok (ctx st.env)) && ps.all (·.ok (ctx st.env)) then r else .ill

/-- Throw unless the condition holds. -/
def condThrow (st : St) (e : Ex) (pre : List String) (m : List Piece) : R :=
  typed st [e] m <| val st e fun v => if v ≠ 0 then .done st else msg st m fun l => .thrown (cat (pre ++ l))

/-- A failed test. -/
def failed (st : St) (o e : List Int) : R :=
  .done { st with fails := st.fails + 1, out := st.out ++ o.map toString, err := st.err ++ e.map toString }

def printed (st : St) (o : List Int) : St := { st with out := st.out ++ o.map toString }

def head (s : Site) : List String := ["std::runtime_error in ", s.loc, ": "]

/-- What a use of a macro means. -/
def Mac.means (s : Site) : Mac → St → R
  | .throw_ ex func m, st => typed st [] (func ++ m) <| msg st func fun f => msg st m fun l => .thrown (cat ([ex ++ " in "] ++ f ++ [": "] ++ l))
  | .assert e, st => condThrow st e (head s ++ ["Assertion `", s.src e, "' failed."]) []
  | .assertMsg e m, st => condThrow st e (head s ++ ["Assertion `", s.src e, "' failed.\n  "]) m
  | .debugAssert e, st => condThrow st e (head s ++ ["Assertion `", s.src e, "' failed."]) []
  | .debugAssertMsg e m, st => condThrow st e (head s ++ ["Assertion `", s.src e, "' failed.\n  "]) m
  | .precondition e, st => condThrow st e (head s ++ ["Precondition `", s.src e, "' failed."]) []
  | .preconditionMsg e m, st => condThrow st e (head s ++ ["Precondition `", s.src e, "' failed.\n  "]) m
  | .debugPrecondition e, st => condThrow st e (head s ++ ["Precondition `", s.src e, "' failed."]) []
  | .failMsg m, st => typed st [] m <| msg st m fun l => .thrown (cat (head s ++ ["ErrorTag "] ++ l))
  | .assertEqual a b, st => typed st [a, b] [] <| val st a fun v => val st b fun w => if v = w then .done st else
      .thrown (cat (head s ++ ["Assertion `", s.src a, "==", s.src b, "' failed.\n  ", toString v, " != ", toString w]))
  | .notify m, st => typed st [] m <| msg st m fun l => .done { st with err := st.err ++ l }
  | .warn m, st => typed st [] m <| msg st m fun l => .done { st with err := st.err ++ l }
  | .error m, st => typed st [] m <| msg st m fun l => .done { st with err := st.err ++ l }
  | .warnOnce seen m, st => typed st [] m <| if seen then .done st else msg st m fun l => .done { st with err := st.err ++ l }
  | .tAssert e, st => typed st [e] [] <| val st e fun v => if v ≠ 0 then .done st else failed st [] []
  | .tCheck a b, st => typed st [a, b] [] <| val st a fun v => val st b fun w =>
      if v = w then .done (printed st [v]) else failed (printed st [v]) [w] [v]
  | .tCheckWarn a b, st => typed st [a, b] [] <| val st a fun v => val st b fun w =>
      if v = w then .done (printed st [v]) else .done { printed st [v, w] with err := st.err ++ [toString v] }
  | .tSame f a b, st => typed st [a, b] [] <| val st a fun v => val st b fun w => if f v w ≠ 0 then .done st else failed st [v, w] [v, w]
  | .tSameAs f a b, st => typed st [a, b] [] <| val st a fun v => val st b fun w => if f v w ≠ 0 then .done st else failed st [v] [v, w]
  | .tEqual a b, st => typed st [a, b] [] <| val st a fun v => val st b fun w => if v = w then .done st else failed st [v, w] [v, w]
  | .tNotEqual a b, st => typed st [a, b] [] <| val st a fun v => val st b fun w => if v ≠ w then .done st else failed st [v, w] [v, w]
  | .tEquals a b, st => typed st [a, b] [] <| val st a fun v => val st b fun w => if v = w then .done st else failed st [v] [v, w]
  | .tWithin a b t, st => typed st [a, b, t] [] <| val st a fun v => val st b fun w => val st t fun u =>
      if (v - w).natAbs ≤ u then .done st else failed st [v, w, (v - w).natAbs, u] [v, w, (v - w).natAbs, u]
  | .tLess a b, st => typed st [a, b] [] <| val st a fun v => val st b fun w => if v < w then .done st else failed st [v] [v]
  | .tUnary p a, st => typed st [a, .call1 p a] [] <| val st a fun v => val st (.call1 p a) fun r =>
      if r ≠ 0 then .done (printed st [v]) else failed (printed st [v]) [] [v]
  | .tBinary p a b, st => typed st [a, b, .call2 p a b] [] <| val st a fun v => val st b fun w => val st (.call2 p a b) fun r =>
      if r ≠ 0 then .done (printed st [v, w]) else failed (printed st [v, w]) [] [v, w]
  | .tCompare f a b, st => typed st [a, b] [] <| val st a fun v => val st b fun w =>
      if f v w ≠ 0 then .done (printed st [v, w]) else failed (printed st [v]) [w] [v, w]
  | .tResultCompare f a b, st => typed st [a, b] [] <| val st a fun v => val st b fun w =>
      if f v w ≠ 0 then .done (printed st [v, w]) else failed (printed st [v]) [] [v, w]
  | .tPrint e, st => typed st [e] [] <| val st e fun v => .done (printed st [v])
  | .tComment m, st => typed st [] m <| msg st m fun l => .done { st with out := st.out ++ l }
  | .tWarn m, st => typed st [] m <| msg st m fun l => .done { st with out := st.out ++ l, err := st.err ++ l }

/-- The arguments do not use the names that the macro declares around them. -/
def Mac.clean : Mac → Prop
  | .throw_ _ func m => "ss" ∉ msgNames func ∧ "ss" ∉ msgNames m
  | .assert e | .debugAssert e | .precondition e => "assertion_result" ∉ e.names
  | .assertMsg e m | .debugAssertMsg e m | .preconditionMsg e m =>
      "assertion_result" ∉ e.names ∧ "assertion_result" ∉ msgNames m ∧ "ss" ∉ msgNames m
  | .debugPrecondition e => "result" ∉ e.names
  | .failMsg m => "ss" ∉ msgNames m
  | .assertEqual a b => ("assertion_result" ∉ a.names ∧ "ss" ∉ a.names) ∧ "assertion_result" ∉ b.names ∧ "ss" ∉ b.names
  | .notify _ | .warn _ | .error _ | .tPrint _ | .tComment _ | .tWarn _ => True
  | .warnOnce _ m => "first_time" ∉ msgNames m
  | .tAssert e => "result" ∉ e.names
  | .tCheck a b | .tCheckWarn a b | .tSame _ a b | .tSameAs _ a b | .tEqual a b | .tNotEqual a b | .tEquals a b | .tLess a b
  | .tCompare _ a b => "ok" ∉ a.names ∧ "ok" ∉ b.names
  | .tWithin a b t => ("error" ∉ a.names ∧ "ok" ∉ a.names) ∧ ("error" ∉ b.names ∧ "ok" ∉ b.names) ∧ "error" ∉ t.names ∧ "ok" ∉ t.names
  | .tUnary p a => p ≠ "ok" ∧ "ok" ∉ a.names
  | .tBinary p a b => p ≠ "ok" ∧ "ok" ∉ a.names ∧ "ok" ∉ b.names
  | .tResultCompare _ a b => "result" ∉ a.names ∧ ("result" ∉ b.names ∧ "ok" ∉ b.names)

end Helper.Names
