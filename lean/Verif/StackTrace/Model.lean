import Verif.Stream.Model
/-!
# Model of `stack_trace` (stack_trace.cpp:30-77)

`backtrace`, `backtrace_symbols`, `dladdr` and `__cxa_demangle` are taken as documented. `std::cerr` is a text to which
characters are appended; it is usable and has default formatting. Writing a null `char const*` to a stream is undefined by
the standard (the GNU library sets badbit, so that nothing is written any more).
-/
namespace Helper.StackTrace

/-- What the system tells about a frame. -/
structure Frame where
  addr : Nat
  /-- `dladdr` fails, or gives a symbol name, which is null if no symbol matches -/
  dl : Option (Option (List Char))
  /-- the demangled form of the text `backtrace_symbols` gives, if it is a mangled name -/
  demangled : Option (List Char)

/-- Text written to `std::cerr` and number of blocks from `malloc` not freed. -/
structure St where
  out : List Char
  live : Nat
deriving DecidableEq, Repr

/-- Line 43 -/
def callstackSize : Nat := 128

/-- Lines 51-62: one iteration, for frame number `i`. `ptr` is the text written for an address. -/
def frame (ptr : Nat → List Char) (i : Nat) (f : Frame) (s : St) : Res St :=
  match f.dl with
  | some sname =>
    let live := if f.demangled.isSome then s.live + 1 else s.live
    match (match f.demangled with | some d => some d | none => sname) with
    | none => .ub .nullDeref
    | some text => .ok ⟨s.out ++ text ++ ['\n'], if f.demangled.isSome then live - 1 else live⟩
  | none => .ok { s with out := s.out ++ OStream.digits i ++ [' '] ++ ptr f.addr ++ ['\n'] }

/-- The loop of lines 50-63. -/
def loop (ptr : Nat → List Char) : Nat → List Frame → St → Res St
  | _, [], s => .ok s
  | i, f :: fs, s =>
    match frame ptr i f s with
    | .ok s' => loop ptr (i + 1) fs s'
    | r => r

/-- Lines 42-65 for a call stack, innermost frame first. `mem` tells whether `backtrace_symbols` gets memory;
`ndebug` whether the assertion of line 49 is compiled away. -/
def stackTrace (ptr : Nat → List Char) (mem ndebug : Bool) (stack : List Frame) (s : St) : Res St :=
  let frames := stack.take callstackSize
  if mem then
    match loop ptr 0 frames { s with live := s.live + 1 } with
    | .ok s' => .ok { s' with live := s'.live - 1 }
    | r => r
  else if !ndebug then .abort
  else if frames.isEmpty then .ok s
  else
    -- `symbols[i]` of a null array, unless `dladdr` fails for every frame
    if frames.any (·.dl.isSome) then .ub .nullDeref else loop ptr 0 frames s

/-- Line 72: without `ENABLE_STACK_TRACE`. -/
def stackTraceDisabled (s : St) : Res St := .ok s

end Helper.StackTrace
