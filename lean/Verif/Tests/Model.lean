import Verif.TestC.Model
import Verif.LRU.Model
import Verif.MapC.Model
import Verif.ListC.Model
import Verif.Arr.Model
import Verif.Lazy.Model
import Verif.Double.Model
import Verif.Randomiser.Model
import Verif.StackTrace.Model
/-!
# Model of the project's test programs (test/*.cpp)

The programs are written in the language of `TestC.Model` over the models of the components. The destructors of local variables stand at the
end of the function; a function that is left by an exception does not run them here. Printing a container reads its elements.
-/
namespace Helper.Tests

open Helper.Macro Helper.TestC

variable {σ α β V : Type}

/-- The state of a test program: how it was ended before its time, if it was, and its variables. -/
structure World (σ : Type) where
  stop : Option Exit
  s : σ
deriving DecidableEq

/-- The exceptions of the components as test macros see them; those of user code are taken not to be standard ones. -/
def thrown : Exn → Thrown
  | .runtimeError => .std 0
  | .outOfRange => .std 1
  | .badAlloc => .std 2
  | .badCast => .std 3
  | .iosFailure => .std 4
  | .badFunctionCall => .std 5
  | .user n => .other n

/-- A call of a component. Undefined behaviour and `abort()` are remembered; what the program does after them has no meaning. -/
def lift (m : σ → Res α × σ) : Exp (World σ) α := fun w =>
  match m w.s with
  | (.ok a, s) => (.val a, { w with s := s })
  | (.exn e, s) => (.thrown (thrown e), { w with s := s })
  | (.ub _, s) => (.thrown (.other 0), ⟨w.stop.or (some .ub), s⟩)
  | (.abort, s) => (.thrown (.other 0), ⟨w.stop.or (some .aborted), s⟩)

/-- A call that changes nothing. -/
def look (f : σ → Res α) : Exp (World σ) α := lift fun s => (f s, s)

/-- A statement that changes the variables. -/
def upd (f : σ → Res σ) : Exp (World σ) Unit := lift fun s =>
  match f s with
  | .ok s' => (.ok (), s')
  | .exn e => (.exn e, s)
  | .ub k => (.ub k, s)
  | .abort => (.abort, s)

/-- How the test executable ends. -/
def outcome (rtl : Bool) (p : Stmt (World σ) V) (s : σ) : Exit :=
  match (exec rtl p ⟨⟨none, s⟩, 0, 0⟩).2.u.stop with
  | some x => x
  | none => main rtl p ⟨none, s⟩

/-- Statements one after the other. -/
def block : List (Stmt (World σ) V) → Stmt (World σ) V
  | [] => .code (.pure ())
  | [p] => p
  | p :: ps => .seq p (block ps)

/-- `==` of integers and other values without effects. -/
def eqv [DecidableEq V] (a b : V) : Exp (World σ) Bool := .pure (decide (a = b))

/-! ## test_lru_cache.cpp -/

/-- `operator<` of strings: lexicographic. -/
def ltChars : List Char → List Char → Bool
  | [], [] => false
  | [], _ :: _ => true
  | _ :: _, [] => false
  | a :: as, b :: bs => if a.toNat < b.toNat then true else if b.toNat < a.toNat then false else ltChars as bs

instance : Cmp (List Char) := ⟨ltChars⟩

/-- The functions the test calls, so that it can be run against other implementations. -/
structure LruApi (C : Type) where
  construct : Nat → Res C
  put : C → List Char → Int → Res Unit × C
  get : C → List Char → Res Int × C
  age : C → List Char → Res Nat
  hasLabel : C → List Char → Bool
  currentSize : C → Nat
  maximumSize : C → Nat

/-- The functions of the library. -/
def lruApi : LruApi (LRU.Cache (List Char) Int) where
  construct := LRU.construct
  put c l v := LRU.put c l (.ext v) none
  get c l := match LRU.get c l with
    | (.ok v, c') => (.ok v.1, c')
    | (.exn e, c') => (.exn e, c')
    | (.ub k, c') => (.ub k, c')
    | (.abort, c') => (.abort, c')
  age := LRU.age
  hasLabel := LRU.hasLabel
  currentSize := LRU.currentSize
  maximumSize := LRU.Cache.maximumSize

namespace Lru

def first : List Char := ['f', 'i', 'r', 's', 't']
def second : List Char := ['s', 'e', 'c', 'o', 'n', 'd']
def third : List Char := ['t', 'h', 'i', 'r', 'd']
def fourth : List Char := ['f', 'o', 'u', 'r', 't', 'h']
def something : List Char := ['s', 'o', 'm', 'e', 't', 'h', 'i', 'n', 'g']

/-- The variables: `cache`, once constructed, and `val`. -/
structure Vars (C : Type) where
  cache : Option C
  val : Int
deriving DecidableEq

variable {C : Type} (A : LruApi C)

/-- `CacheType cache(n);` -/
def make (n : Nat) : Stmt (World (Vars C)) Int := .code (upd fun s => (A.construct n).bind fun c => .ok { s with cache := some c })

/-- A use of the variable `cache`. -/
def on (f : C → Res α × C) : Exp (World (Vars C)) α := lift fun s =>
  match s.cache with
  | none => (.ub .notAlive, s)
  | some c => let r := f c; (r.1, { s with cache := some r.2 })

def put (l : List Char) (v : Int) : Stmt (World (Vars C)) Int := .code (on fun c => A.put c l v)
def has (l : List Char) : Exp (World (Vars C)) Bool := on fun c => (.ok (A.hasLabel c l), c)
def get (l : List Char) : Exp (World (Vars C)) Int := on fun c => A.get c l
def age (l : List Char) : Exp (World (Vars C)) Int := (on fun c => (A.age c l, c)).bind fun n => .pure (n : Int)
def size : Exp (World (Vars C)) Int := on fun c => (.ok (A.currentSize c : Int), c)
def max : Exp (World (Vars C)) Int := on fun c => (.ok (A.maximumSize c : Int), c)

/-- `HELPER_TEST_EQUALS(e,n)` -/
def is (e : Exp (World (Vars C)) Int) (n : Int) : Stmt (World (Vars C)) Int := .equals eqv e (.pure n)

def not (e : Exp (World (Vars C)) Bool) : Exp (World (Vars C)) Bool := e.bind fun b => .pure (!b)

def discard (e : Exp (World (Vars C)) Int) : Exp (World (Vars C)) Unit := e.bind fun _ => .pure ()

/-- test_lru_cache.cpp:43-48; `CacheType(0)` is a temporary. -/
def construct : Stmt (World (Vars C)) Int := block [.fail (.code (upd fun s => (A.construct 0).bind fun _ => .ok s)), make A 1, is (size A) 0, is (max A) 1]
/-- lines 50-53 -/
def find : Stmt (World (Vars C)) Int := block [make A 2, .assert (not (has A something))]
/-- lines 55-58 -/
def getFailure : Stmt (World (Vars C)) Int := block [make A 2, .fail (.code (discard (get A something)))]
/-- lines 60-67 -/
def putSingle : Stmt (World (Vars C)) Int := block [make A 2, put A first 42, is (size A) 1, is (age A first) 0,
  .code ((get A first).bind fun v => upd fun s => .ok { s with val := v }), is (look fun s => .ok s.val) 42]
/-- lines 69-76 -/
def putMultiple : Stmt (World (Vars C)) Int := block [make A 2, put A first 42, put A second 10, is (size A) 2, is (age A first) 1, is (age A second) 0]
/-- lines 78-89 -/
def putMultipleOver : Stmt (World (Vars C)) Int := block [make A 3, put A first 42, put A second 10, put A third 5, put A fourth 12, is (size A) 3,
  .assert (not (has A first)), is (age A second) 2, is (age A third) 1, is (age A fourth) 0]
/-- lines 91-102 -/
def getTest : Stmt (World (Vars C)) Int := block [make A 4, put A first 42, put A second 10, put A third 5, put A fourth 12,
  .code (discard (get A second)), is (age A second) 0, is (age A first) 3, is (age A third) 2, is (age A fourth) 1]

/-- lines 104-119 -/
def test : Stmt (World (Vars C)) Int := block [.call (construct A), .call (find A), .call (getFailure A), .call (putSingle A), .call (putMultiple A),
  .call (putMultipleOver A), .call (getTest A)]

def init : Vars C := ⟨none, 0⟩

end Lru

/-! ## test_container.cpp; `double` values are rational numbers -/

namespace Cont

structure Vars where
  im : MapC.Map Int Int
  dm : MapC.Map Int Rat
  s : List Int
  m : MapC.Map Int Rat
  restricted : MapC.Map Int Rat
  l : List Int

abbrev P := Stmt (World Vars) Int

/-- `std::map::at` throws `std::out_of_range`, `std::vector::at` as well. -/
def mapAt {ν : Type} (m : MapC.Map Int ν) (k : Int) : Res ν :=
  match OMap.find k m with
  | some e => .ok e.2
  | none => .exn .outOfRange

def vecAt (l : List Int) (i : Nat) : Res Int :=
  match l[i]? with
  | some x => .ok x
  | none => .exn .outOfRange

/-- `a and b` -/
def and (a b : Exp (World Vars) Bool) : Exp (World Vars) Bool := a.bind fun x => if x then b else .pure false

def imInit : P := .code (upd fun s => .ok { s with im := MapC.ofList [(1, 10), (2, 20)] })

/-- test_container.cpp:38-42 -/
def mapGet : P := block [imInit, .fail (.code (look fun s => (MapC.get s.im 3).bind fun _ => .ok ())),
  .equals eqv (look fun s => MapC.get s.im 2) (.pure 20)]

/-- lines 44-49; the operands of `==` read only. -/
def mapConvert : P := block [imInit, .code (upd fun s => .ok { s with dm := MapC.ofList (s.im.map fun e => (e.1, (e.2 : Rat))) }),
  .assert (and (look fun s => (mapAt s.dm 1).bind fun a => (mapAt s.im 1).bind fun b => .ok (decide (a = (b : Rat))))
    (look fun s => (mapAt s.dm 2).bind fun a => (mapAt s.im 2).bind fun b => .ok (decide (a = (b : Rat)))))]

/-- lines 51-57; the set given to `restrict_keys` is a `Set`. -/
def mapRestrictKeys : P := block [.code (upd fun s => .ok { s with s := SetC.ofList [1, 2] }),
  .code (upd fun s => .ok { s with m := MapC.ofList [(1, 12 / 10), (2, 15 / 10), (3, 1), (5, 1 / 10)] }),
  .code (upd fun s => (MapC.restrictKeys s.m true s.s).bind fun r => .ok { s with restricted := r }),
  .equals eqv (look fun s => .ok (s.restricted.length : Int)) (.pure 2),
  .assert (and (look fun s => .ok (MapC.hasKey s.restricted 1)) (look fun s => .ok (MapC.hasKey s.restricted 2)))]

/-- lines 59-64 -/
def makeListOfSet : P := block [.code (upd fun s => .ok { s with s := SetC.ofList [1, 5, 3] }), .code (upd fun s => .ok { s with l := SetC.toList s.s }),
  .equals eqv (look fun s => .ok (s.l.length : Int)) (.pure 3),
  .assert (and (and (look fun s => (vecAt s.l 0).bind fun x => .ok (x == 1)) (look fun s => (vecAt s.l 1).bind fun x => .ok (x == 3)))
    (look fun s => (vecAt s.l 2).bind fun x => .ok (x == 5)))]

/-- lines 66-78 -/
def test : P := block [.call mapGet, .call mapConvert, .call mapRestrictKeys, .call makeListOfSet]

def init : Vars := ⟨[], [], [], [], [], []⟩

end Cont

/-! ## test_array.cpp; an object of the two classes is its member `a` -/

namespace Array

abbrev P := Stmt (World (Arr.St Int)) (List Int)

/-- The variables: 0 `tca`, 1 `tcta`, 2 `tcac`, 3 `a1`, 4 `a2`. `sizeof` is 4 for all of them. -/
def op (o : Arr.Op Int) : P := .code (lift (Arr.op 4 0 o))

/-- The elements from index `i` on, read for printing (container.hpp:51-59). -/
def elems (x : Nat) : Nat → Nat → Arr.M Int (List Int)
  | 0, _ => Arr.M.pure []
  | n + 1, i => (Arr.index x i).bind fun v => (elems x n (i + 1)).bind fun vs => Arr.M.pure (v :: vs)

def all (x : Nat) : Arr.M Int (List Int) := (Arr.size x).bind fun n => elems x n 0

/-- test_array.cpp:52-56; the conversion constructor is the copy of the elements; `tcac` lives in the block of `HELPER_TEST_EXECUTE`. -/
def convert : P := block [op (.ctorRange 0 (.ext [1, 2])), op (.ctorRange 1 (.ext [1, 2])), .execute (.seq (op (.ctorCopy 2 1)) (op (.destroy 2))),
  op (.destroy 1), op (.destroy 0)]

/-- lines 58-63 -/
def print : P := block [op (.ctorDefault 3), .print (lift (all 3)), op (.ctorRange 4 (.ext [1, 2])), .print (lift (all 4)), op (.destroy 4), op (.destroy 3)]

/-- lines 65-75 -/
def test : P := block [.call convert, .call print]

end Array

/-! ## test_lazy.cpp; `double` values are rational numbers -/

namespace Lz

/-- The Lazy variables, and the values of the objects made and of the copy `obj`. -/
structure Vars where
  w : Lazy.World
  made : List Rat
  obj : Rat

abbrev P := Stmt (World Vars) Rat

/-- `lazy()`: the factory makes a `TestClass(2.0)`, whose value is `2.0*2.0`; `f` tells whether memory is there. -/
def call (f : Nat → Lazy.Outcome) (s : Vars) : Res Rat × Vars :=
  match Lazy.eval f 0 s.w with
  | (.ok k, w') =>
    let made := if w'.calls.length = s.w.calls.length then s.made else s.made ++ [2 * 2]
    match made[k]? with
    | some v => (.ok v, { s with w := w', made := made })
    | none => (.ub .dangling, { s with w := w', made := made })
  | (.exn e, w') => (.exn e, { s with w := w' })
  | (.ub k, w') => (.ub k, { s with w := w' })
  | (.abort, w') => (.abort, { s with w := w' })

def step (f : Nat → Lazy.Outcome) (o : Lazy.Op) : P := .code (upd fun s =>
  match Lazy.step f o s.w with
  | (.ok _, w') => .ok { s with w := w' }
  | (.exn e, _) => .exn e
  | (.ub k, _) => .ub k
  | (.abort, _) => .abort)

/-- test_lazy.cpp:52-59 -/
def creation (f : Nat → Lazy.Outcome) : P := block [step f (.construct true), .print (.pure 0), .code ((lift (call f)).bind fun v => upd fun s => .ok { s with obj := v }),
  .equal eqv (look fun s => .ok s.obj) (.pure 4), step f (.destroy 0)]

/-- lines 61-70 -/
def test (f : Nat → Lazy.Outcome) : P := .call (creation f)

def init : Vars := ⟨.init, [], 0⟩

end Lz

/-! ## test_stopwatch.cpp -/

namespace Watch

/-- The number of clock readings so far and the watch. -/
structure Vars where
  reads : Nat
  sw : Stopwatch.St

abbrev P := Stmt (World Vars) Int

variable (clock : Nat → Int)

/-- `Stopwatch<D> sw;` -/
def make : P := .code (upd fun s => let sw := Stopwatch.restart clock ⟨s.reads, 0, 0⟩; .ok ⟨sw.reads, sw⟩)

/-- test_stopwatch.cpp:41-43 -/
def create : P := make clock

/-- lines 45-51; the sleep shows in the clock only. The literal `0.01` is rounded to `double`. -/
def duration : P := block [make clock, .code (upd fun s => let sw := Stopwatch.click clock { s.sw with reads := s.reads }; .ok ⟨sw.reads, sw⟩),
  .assert (look fun s => (Stopwatch.duration 1000 s.sw).bind fun d => .ok (decide (d > 10000))),
  .assert (look fun s => (Double.elapsed 53 1 1000000 1000 s.sw).bind fun d => .ok (decide (d > Double.round 53 (1 / 100))))]

/-- lines 53-63 -/
def test : P := block [.call (create clock), .call (duration clock)]

def init : Vars := ⟨0, ⟨0, 0, 0⟩⟩

end Watch

/-! ## test_randomiser.cpp -/

namespace Rnd

/-- The generator of the translation unit, and the lists of values. The local variables `generator` are not used. -/
structure Vars (E : Type) where
  e : E
  ints : List Int
  reals : List Rat

variable {E : Type}

/-- The two distributions: of unsigned integers and of reals. -/
structure Dists (E : Type) where
  int : Randomiser.Dist Int E
  real : Randomiser.Dist Rat E

abbrev P (E : Type) := Stmt (World (Vars E)) (List Rat)

/-- `values.push_back(rnd.get())`, `n` times. -/
def drawInts (d : Dists E) (r : Randomiser.Randomiser Int) : Nat → Vars E → Vars E
  | 0, s => s
  | n + 1, s => let x := Randomiser.get d.int r s.e; drawInts d r n { s with e := x.2, ints := ListC.append s.ints x.1 }

def drawReals (d : Dists E) (r : Randomiser.Randomiser Rat) : Nat → Vars E → Vars E
  | 0, s => s
  | n + 1, s => let x := Randomiser.get d.real r s.e; drawReals d r n { s with e := x.2, reals := ListC.append s.reals x.1 }

/-- test_randomiser.cpp:46-56 -/
def int (d : Dists E) (tries : Nat) : P E := block [.code (upd fun s => (Randomiser.make (0 : Int) 255).bind fun r => .ok (drawInts d r tries { s with ints := [] })),
  .print (look fun s => .ok (s.ints.map (Int.cast : Int → Rat)))]

/-- lines 58-68 -/
def real (d : Dists E) (tries : Nat) : P E := block [.code (upd fun s => (Randomiser.make (0 : Rat) 1).bind fun r => .ok (drawReals d r tries { s with reals := [] })),
  .print (look fun s => .ok s.reals)]

/-- lines 70-80, where `tries` is 10 -/
def test (d : Dists E) (tries : Nat) : P E := block [.call (int d tries), .call (real d tries)]

end Rnd

/-! ## test_stack_trace.cpp -/

namespace Trace

/-- What the system says in the calls of the two tests. -/
structure Sys where
  ptr : Nat → List Char
  mem : Bool
  ndebug : Bool
  stack : List StackTrace.Frame

/-- A call of `stack_trace()`; `enabled` is `ENABLE_STACK_TRACE`. -/
def trace (enabled : Bool) (y : Sys) : Stmt (World StackTrace.St) Unit :=
  .code (upd fun s => if enabled then StackTrace.stackTrace y.ptr y.mem y.ndebug y.stack s else StackTrace.stackTraceDisabled s)

/-- test_stack_trace.cpp:46-64 -/
def test (enabled : Bool) (y1 y2 : Sys) : Stmt (World StackTrace.St) Unit := block [.call (trace enabled y1), .call (trace enabled y2)]

end Trace

end Helper.Tests
