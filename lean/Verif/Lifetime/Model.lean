import Verif.Basic
/-!
# Model of functions that return references to their arguments (string.hpp:49-50, tuple.hpp:43-54, variant.inl.hpp:172-174)

Objects are strings, tuples and visitors; their parts (characters, elements, members) are numbers. An argument is bound to a parameter,
perhaps through a temporary object, which lives to the end of the full-expression ([class.temporary]); objects made in the called
function live until it returns. A pointer to the characters of a string is good until the string is modified.
-/
namespace Helper.Lifetime

/-- `gen` counts the modifications. -/
structure Obj where
  parts : List Nat
  gen : Nat
  alive : Bool
deriving DecidableEq, Repr

/-- Arguments. -/
inductive Arg where
  /-- a variable -/ | var (x : Nat)
  /-- a variable of another class that converts to the parameter's, as `std::string` to `String` -/ | other (x : Nat)
  /-- `std::move` of a variable that is not const -/ | moved (x : Nat)
  /-- an expression whose value is a new object, of a const class type or not -/ | tmp (parts : List Nat) (isConst : Bool)
deriving DecidableEq, Repr

/-- Parameters. -/
inductive Param where
  /-- `String const&` -/ | fixed
  /-- `T const&`, with `T` deduced -/ | deduced
  /-- `T&&`, with `T` deduced -/ | forward
  /-- `T&`, with `T` deduced -/ | lvalue
deriving DecidableEq, Repr

/-- A new object. -/
def new (parts : List Nat) (s : List Obj) : Nat × List Obj := (s.length, s ++ [⟨parts, 0, true⟩])

/-- Binding an argument: the object, whether it is a temporary, and the objects then. `none`: does not compile or no such variable.
A `T&` takes no value, except a const one, where `T` is deduced as a const type ([temp.deduct.call]). -/
def bind : Param → Arg → List Obj → Option (Nat × Bool × List Obj)
  | _, .var x, s => if x < s.length then some (x, false, s) else none
  | .fixed, .other x, s => (s[x]?).map fun o => let (n, s') := new o.parts s; (n, true, s')
  | _, .other x, s => if x < s.length then some (x, false, s) else none
  | .lvalue, .moved _, _ => none
  | _, .moved x, s => if x < s.length then some (x, false, s) else none
  | .lvalue, .tmp _ false, _ => none
  | _, .tmp ps _, s => let (n, s') := new ps s; some (n, true, s')

/-- Binding several arguments: the objects they are bound to, and the temporaries among them. -/
def bindAll (p : Param) : List Arg → List Obj → Option (List Nat × List Nat × List Obj)
  | [], s => some ([], [], s)
  | a :: as, s =>
    (bind p a s).bind fun (n, t, s1) => (bindAll p as s1).map fun (ns, ts, s2) => (n :: ns, if t then n :: ts else ts, s2)

/-- What a visitor returns. -/
inductive Visitor where
  /-- a reference to its member -/ | own (i : Nat)
  /-- a reference to its argument, an alternative with these members -/ | arg (parts : List Nat)
  /-- a value -/ | value (n : Nat)
deriving DecidableEq, Repr

inductive Fn where
  /-- string.hpp:49-50 `c_str` -/ | cStr
  /-- tuple.hpp:50-54 `get_first`, …, `get_fifth` -/ | get (i : Nat)
  /-- tuple.hpp:43 `make_lpair`, 47 `make_ltuple` -/ | tie
  /-- variant.inl.hpp:172-174 `accept` -/ | accept (v : Visitor)
deriving DecidableEq, Repr

/-- A reference to an object or a part of it; a pointer into a string has the count of modifications it is good for. -/
structure Ref where
  obj : Nat
  part : Option Nat
  gen : Option Nat
deriving DecidableEq, Repr

inductive Out where
  | refs (l : List Ref)
  | val (n : Nat)
deriving DecidableEq, Repr

def Fn.param : Fn → Param
  | .cStr => .fixed
  | .get _ => .forward
  | .tie => .lvalue
  | .accept _ => .deduced

def kill (n : Nat) (s : List Obj) : List Obj := s.modify n fun o => { o with alive := false }

/-- The bodies, with the parameters bound to the objects `ns`. `none`: does not compile. -/
def Fn.body : Fn → List Nat → List Obj → Option (Out × List Obj)
  | .cStr, [n], s => (s[n]?).map fun o => (.refs [⟨n, none, some o.gen⟩], s)
  | .get i, [n], s => (s[n]?).bind fun o => if i < o.parts.length then some (.refs [⟨n, some i, none⟩], s) else none
  | .tie, ns, s => some (.refs (ns.map fun n => ⟨n, none, none⟩), s)
  | .accept (.own i), [n], s => (s[n]?).bind fun o => if i < o.parts.length then some (.refs [⟨n, some i, none⟩], s) else none
  | .accept (.arg ps), [_], s => let (l, s') := new ps s; some (.refs [⟨l, none, none⟩], kill l s')
  | .accept (.value k), [_], s => some (.val k, s)
  | _, _, _ => none

/-- A call as part of a full-expression: the result, the temporaries and the objects. -/
def call (f : Fn) (as : List Arg) (s : List Obj) : Option (Out × List Nat × List Obj) :=
  (bindAll f.param as s).bind fun (ns, ts, s1) => (f.body ns s1).map fun (r, s2) => (r, ts, s2)

/-- `auto&& r = f(as…);` -/
def keep (f : Fn) (as : List Arg) (s : List Obj) : Option (Out × List Obj) :=
  (call f as s).map fun (r, ts, s') => (r, ts.foldl (fun s n => kill n s) s')

/-- Reading through a reference. -/
def Ref.read (r : Ref) (s : List Obj) : Res (List Nat) :=
  match s[r.obj]? with
  | none => .ub .dangling
  | some o =>
    if o.alive && (r.gen.isNone || r.gen == some o.gen) then
      match r.part with
      | none => .ok o.parts
      | some i =>
        match o.parts[i]? with
        | some v => .ok [v]
        | none => .ub .outOfBounds
    else .ub .dangling

/-- Reading through several references in turn. -/
def readAll : List Ref → List Obj → Res (List (List Nat))
  | [], _ => .ok []
  | r :: l, s => (r.read s).bind fun v => (readAll l s).bind fun vs => .ok (v :: vs)

/-- Reading a result. -/
def Out.read : Out → List Obj → Res (List (List Nat))
  | .val n, _ => .ok [[n]]
  | .refs l, s => readAll l s

/-- What else a program does. -/
inductive Op where
  | declare (parts : List Nat)
  /-- the end of the scope of a variable -/ | leave (x : Nat)
  /-- the new value has as many parts, or is a string -/ | assign (x : Nat) (parts : List Nat)
  | keep (f : Fn) (as : List Arg)
deriving DecidableEq, Repr

def step : Op → List Obj → Option (List Obj)
  | .declare ps, s => some (new ps s).2
  | .leave x, s => some (kill x s)
  | .assign x ps, s => some (s.modify x fun o => { o with parts := ps, gen := o.gen + 1 })
  | .keep f as, s => (Lifetime.keep f as s).map Prod.snd

def run : List Op → List Obj → Option (List Obj)
  | [], s => some s
  | o :: os, s => (step o s).bind (run os)

end Helper.Lifetime
