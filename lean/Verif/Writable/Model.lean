import Verif.Basic
/-!
# Model of `WritableInterface`, `Writer` and `WritableTemporary` (writable.hpp:44-98)

Streams are numbered; the state has the text of every stream and tells which objects are alive. A write function (`_write`, user
code) is any function of a stream and the state; it returns a stream, by convention the one it was given.
-/
namespace Helper.Writable

structure W where
  text : Nat → List Char
  alive : Nat → Bool

/-- A write function: given a stream, it changes the state and returns a stream. -/
abbrev Write := Nat → W → Nat × W

/-- A write function that writes `t` and returns its argument. -/
def writes (t : List Char) : Write := fun os w => (os, { w with text := fun s => if s = os then w.text os ++ t else w.text s })

/-- Line 54: `os << w` for a `WritableInterface`. -/
def shl (os : Nat) (write : Write) (w : W) : Nat × W := (os, (write os w).2)

/-- Line 49 `WritableInterface::write`. -/
def callWrite (os : Nat) (write : Write) (w : W) : Nat × W := write os w

/-- Lines 60-62: `os << t` for other types with `_write`, where the overload exists. -/
def shlTemplate (os : Nat) (write : Write) (w : W) : Nat × W := write os w

/-- Parameter types of a function `_write`. -/
inductive Param where
  | lref | constLref | rref | val
deriving DecidableEq, Repr

/-- A parameter of type `std::ostream` and the given kind can be initialised from an lvalue (`true`) or an rvalue. Streams
cannot be copied, and moved only by derived classes. -/
def Param.binds : Param → Bool → Bool
  | .lref, lvalue => lvalue
  | .constLref, _ => true
  | .rref, lvalue => !lvalue
  | .val, _ => false

/-- Lines 56-58 `IsWritable<T>`, for a type with (or without) a `_write` with this parameter: `declval<ostream>()` is an rvalue. -/
def isWritable : Option Param → Bool
  | some p => p.binds false
  | none => false

/-- Whether line 61 compiles: the argument is an lvalue. -/
def templateCompiles : Option Param → Bool
  | some p => p.binds true
  | none => false

/-- Lines 86-93: a `WritableTemporary` refers to a writer and an object. -/
structure Temp where
  writer : Nat
  object : Nat

/-- Lines 95-98: `writer(object)`, the handle of a `Writer` giving its object. -/
def mkTemp (writer object : Nat) : Temp := ⟨writer, object⟩

/-- Line 92: `os << temporary`; `fn` is the write function of a writer for an object. -/
def shlTemp (fn : Nat → Nat → Write) (os : Nat) (t : Temp) (w : W) : Res (Nat × W) :=
  if w.alive t.writer ∧ w.alive t.object then .ok (fn t.writer t.object os w) else .ub .dangling

/-- `os << w1 << w2 << ...` for objects with the interface. -/
def chain (os : Nat) : List Write → W → Nat × W
  | [], w => (os, w)
  | f :: fs, w => let r := shl os f w; chain r.1 fs r.2

/-- `os << t1 << t2 << ...` for temporaries. -/
def chainTemp (fn : Nat → Nat → Write) (os : Nat) : List Temp → W → Res (Nat × W)
  | [], w => .ok (os, w)
  | t :: ts, w => (shlTemp fn os t w).bind fun r => chainTemp fn r.1 ts r.2

end Helper.Writable
