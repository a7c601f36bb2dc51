import Verif.Macro.Exp
/-!
# Model of the assertion and diagnostic macros (macros.hpp:49-176)

Writing to a string stream or to `std::cerr` does not throw. The text of the messages is not modelled, except that the
expressions written into them are evaluated. Arguments are taken as expressions; effects of missing parentheses in
the macro texts are not modelled here.
-/
namespace Helper.Macro

variable {σ α : Type}

/-- Lines 49-54 `HELPER_THROW(std::runtime_error,func,msg)`; `msg` evaluates the expressions in the message. -/
def throwRt (msg : Exp σ Unit) : Exp σ Unit := msg.bind fun _ => .throw runtimeError

/-- A message without user expressions. -/
def noMsg : Exp σ Unit := .pure ()

/-- Lines 56-62 `HELPER_ASSERT`; `e` includes the conversion to `bool`. -/
def assert (e : Exp σ Bool) : Exp σ Unit := e.bind fun r => if !r then throwRt noMsg else .pure ()

/-- Lines 130-136 `HELPER_ASSERT_MSG`. -/
def assertMsg (e : Exp σ Bool) (error : Exp σ Unit) : Exp σ Unit := e.bind fun r => if !r then throwRt error else .pure ()

/-- Lines 65-77 `HELPER_DEBUG_ASSERT_MSG`. -/
def debugAssertMsg (ndebug : Bool) (e : Exp σ Bool) (error : Exp σ Unit) : Exp σ Unit :=
  if !ndebug then e.bind fun r => if !r then throwRt error else .pure () else .pure ()

/-- Lines 80-92 `HELPER_DEBUG_ASSERT`. -/
def debugAssert (ndebug : Bool) (e : Exp σ Bool) : Exp σ Unit :=
  if !ndebug then e.bind fun r => if !r then throwRt noMsg else .pure () else .pure ()

/-- Lines 95-101 `HELPER_PRECONDITION_MSG`. -/
def preconditionMsg (e : Exp σ Bool) (error : Exp σ Unit) : Exp σ Unit := e.bind fun r => if !r then throwRt error else .pure ()

/-- Lines 103-109 `HELPER_PRECONDITION`. -/
def precondition (e : Exp σ Bool) : Exp σ Unit := e.bind fun r => if !r then throwRt noMsg else .pure ()

/-- Lines 111-123 `HELPER_DEBUG_PRECONDITION`. -/
def debugPrecondition (ndebug : Bool) (e : Exp σ Bool) : Exp σ Unit :=
  if !ndebug then e.bind fun r => if !r then throwRt noMsg else .pure () else .pure ()

/-- Lines 125-128 `HELPER_FAIL_MSG`. -/
def failMsg (error : Exp σ Unit) : Exp σ Unit := throwRt error

/-- Lines 138-144 `HELPER_ASSERT_EQUAL`; `eq` is the comparison with the conversion of its result to `bool`. The message
evaluates both expressions again. -/
def assertEqual (rtl : Bool) (eq : α → α → Exp σ Bool) (e1 e2 : Exp σ α) : Exp σ Unit :=
  ((Exp.both rtl e1 e2).bind fun p => eq p.1 p.2).bind fun r =>
    if !r then throwRt (e1.bind fun _ => e2.bind fun _ => .pure ()) else .pure ()

/-- Lines 146-147 `HELPER_NOT_IMPLEMENTED`; it needs a name `StringType`, which the library does not define. -/
def notImplemented : Exp σ Unit := .throw runtimeError

/-! ## Diagnostics -/

/-- Kinds of messages written to `std::cerr`. -/
inductive Kind where
  | deprecated | notification | warning | error
deriving DecidableEq, Repr

/-- State of a program with call sites of the diagnostic macros: which `first_time` variables are still true, and what
was written to `std::cerr`: kind and call site. -/
structure Diag where
  first : Nat → Bool
  out : List (Kind × Nat)

def Diag.init : Diag := ⟨fun _ => true, []⟩

/-- Lines 149-154 `HELPER_DEPRECATED` at a call site. -/
def deprecated (site : Nat) (d : Diag) : Diag :=
  if d.first site then
    let d := { d with first := fun s => if s = site then false else d.first s }
    { d with out := d.out ++ [(.deprecated, site)] }
  else d

/-- Lines 166-171 `HELPER_WARN_ONCE`. The message is evaluated after the variable is set; `ok` tells whether its
evaluation ends normally, so that the line is completed. -/
def warnOnce (ok : Bool) (site : Nat) (d : Diag) : Diag :=
  if d.first site then
    let d := { d with first := fun s => if s = site then false else d.first s }
    if ok then { d with out := d.out ++ [(.warning, site)] } else d
  else d

/-- Lines 156-159 `HELPER_NOTIFY`. -/
def notify (site : Nat) (d : Diag) : Diag := { d with out := d.out ++ [(.notification, site)] }

/-- Lines 161-164 `HELPER_WARN`. -/
def warn (site : Nat) (d : Diag) : Diag := { d with out := d.out ++ [(.warning, site)] }

/-- Lines 173-176 `HELPER_ERROR`. -/
def error (site : Nat) (d : Diag) : Diag := { d with out := d.out ++ [(.error, site)] }

/-- What stands at a call site. -/
inductive Site where
  | deprecated | warnOnce | notify | warn | error
deriving DecidableEq, Repr

/-- The program reaches call site `site`; the messages evaluate normally. -/
def reach (kind : Nat → Site) (d : Diag) (site : Nat) : Diag :=
  match kind site with
  | .deprecated => deprecated site d
  | .warnOnce => warnOnce true site d
  | .notify => notify site d
  | .warn => warn site d
  | .error => error site d

end Helper.Macro
