import Verif.Basic
/-!
# Model of the instantiation of container.hpp

A function template is compiled when it is used. Whether its body is then well-formed depends on what the element types provide. The
bodies of container.hpp are written here as programs of a small language; `check` is the part of a type checker that matters for them.
It computes the list of what the element types have to provide, and fails if no element type would do. The templates that are called are
checked too. Calls are with variables as arguments. Left out: conditions on the functions given to `apply` and `elementwise` other than
that they take elements; the constraints on these functions; negative constraints; access control and constness. An element type is taken
as a class that is none of the containers.
-/
set_option linter.constructorNameAsVariable false
namespace Helper.Wf

/-- Types; `elem 0`, `elem 1`, … are the element types the templates are used with. -/
inductive Ty where
  | elem (n : Nat)
  | bool | size | os | text
  | vector (t : Ty)
  | list (t : Ty)
  | stdList (t : Ty)
  | linked (t : Ty)
  | stdSet (t : Ty)
  | set (t : Ty)
  | stdMap (k t : Ty)
  | map (k t : Ty)
  | array (t : Ty)
  | shared (t : Ty)
  | pair (a b : Ty)
  | iter (c : Ty)
  | fn1 (a r : Ty)
  | fn2 (a b r : Ty)
deriving DecidableEq, Repr

/-- What an element type may have to provide. -/
inductive Req where
  /-- copying -/ | copy (t : Ty)
  /-- moving -/ | move (t : Ty)
  /-- a default constructor -/ | dflt (t : Ty)
  /-- `operator<` -/ | less (t : Ty)
  /-- `operator<<` to a stream -/ | print (t : Ty)
  /-- implicit conversion -/ | conv (a b : Ty)
  /-- explicit conversion -/ | expl (a b : Ty)
  /-- templates that call templates deeper than is looked at -/ | deeper
deriving DecidableEq, Repr

/-- container.hpp:71, 137, 161, 249: the base classes. -/
def Ty.base : Ty → Option Ty
  | .list t => some (.vector t)
  | .linked t => some (.stdList t)
  | .set t => some (.stdSet t)
  | .map k t => some (.stdMap k t)
  | _ => none

/-- The type itself or its base class, as the members of the standard library see it. -/
def Ty.std (t : Ty) : Ty := t.base.getD t

/-- What iteration gives. -/
def Ty.item : Ty → Option Ty
  | .vector t | .stdList t | .stdSet t | .array t | .shared t => some t
  | .stdMap k t => some (.pair k t)
  | _ => none

/-- What copying a value needs. -/
def copies : Ty → List Req
  | .elem n => [.copy (.elem n)]
  | .vector t | .list t | .stdList t | .linked t | .stdSet t | .set t | .array t => copies t
  | .stdMap k t | .map k t | .pair k t => copies k ++ copies t
  | _ => []

/-- What printing a value needs. -/
def prints : Ty → Option (List Req)
  | .elem n => some [.print (.elem n)]
  | .text | .size | .bool => some []
  | _ => none

/-- Making a value of the second type in a container from an element of the first; explicit conversions will do. -/
def makes (a b : Ty) : List Req :=
  if a = b then copies b
  else match a, b with
    | .pair a1 a2, .pair b1 b2 =>
      (if a1 = b1 then copies b1 else [.expl a1 b1]) ++ (if a2 = b2 then copies b2 else [.expl a2 b2])
    | _, _ => [.expl a b]

/-- Passing an argument to a parameter `const b&`: the same class, a derived one, arithmetic conversions, `List(T const&)` (line 83), or
a conversion that an element type may have. -/
def passes (a b : Ty) : Option (List Req) :=
  if a = b ∨ a.base = some b then some []
  else match a, b with
    | .size, .bool | .bool, .size => some []
    | .elem n, b => some [.conv (.elem n) b]
    | a, .elem n => some [.conv a (.elem n)]
    | a, .list t => if a = t then some (copies t) else none
    | _, _ => none

/-- Constructors. Of those of `List`, `Set`, `LinkedList` and `Map`: lines 80-87, 143-149, 165-174, 253-255. -/
def ctor : Ty → List Ty → Option (List Req)
  | .vector _, [] | .list _, [] | .stdList _, [] | .linked _, [] | .stdSet _, [] | .set _, [] | .stdMap _ _, [] | .map _ _, [] => some []
  | .vector t, [a] => if a.std = .vector t then some (copies t) else none
  | .vector t, [.size, a] => (passes a t).map (· ++ copies t)
  | .vector t, [.iter c, .iter d] => if c = d then c.item.map (makes · t) else none
  | .list t, [a] =>
    match a.std with
    | .vector u => some (makes u t)
    | _ => (passes a t).map (· ++ copies t)
  | .list t, [.size, a] => (passes a t).map (· ++ copies t)
  | .list t, [.iter c, .iter d] => if c = d then c.item.map (makes · t) else none
  | .stdList t, [.size] => some [.dflt t]
  | .stdList t, [a] => if a.std = .stdList t then some (copies t) else none
  | .stdList t, [.size, a] => (passes a t).map (· ++ copies t)
  | .stdList t, [.iter c, .iter d] => if c = d then c.item.map (makes · t) else none
  | .stdSet t, [.iter c, .iter d] => if c = d then c.item.map fun u => makes u t ++ [.less t] else none
  | .set t, [a] =>
    if a = .set t then some (copies t)
    else match a.std with
      | .vector u | .stdSet u => some (makes u t ++ [.less t])
      | _ => none
  | .stdMap k t, [.iter c, .iter d] => if c = d then c.item.map fun u => makes u (.pair k t) ++ [.less k] else none
  | .map k t, [a] => if a = .map k t then some (copies k ++ copies t) else none
  | .array t, [.size, a] => (passes a t).map (· ++ copies t)
  | .array t, [.iter c, .iter d] => if c = d then c.item.map (makes · t) else none
  | .array t, [a] => if a = .array t then some (copies t) else none
  | .elem n, [a] => some (if a = .elem n then copies a else [.expl a (.elem n)])
  | .pair a b, [c, d] => if a = c ∧ b = d then some (copies a ++ copies b) else none
  | _, _ => none

/-- The functions of container.hpp. -/
inductive Fn where
  | listVector | listValue | listConv | listExpl | listAppend | listAppendAll | listConcatenate
  | catenate | catenateValue | apply | elementwise | elementwise2
  | printArray | printShared | printVector | printList | printSet | printMap
  | linkedEmpty | linkedCount | linkedCountValue | linkedStd | linkedList | linkedLinked | linkedRange
  | linkedAppend | linkedAppendAll | linkedConcatenate
  | setVector | setSet | setExpl | setToList | setContains | setSubset | setDisjoint | setDisjointVector | setAdjoin
  | setRemove | setRemoveAll | setRestrict | setRemoveVector
  | applySet | joinSet | contains | subset | disjoint | disjointVector | intersection | intersectionVector | difference | remove | restrict
  | mapConv | mapIndex | mapIndexConst | mapGet | mapHasKey | mapValue | mapInsertPair | mapInsert | mapAdjoin | mapRemoveKeys | mapKeys | mapValues
  | joinMap | insert | restrictKeys
  | uniqueElements | duplicateElements
  | makeArray | makeArrayVector | makeArrayArray | makeList | makeListVector | makeListArray | makeListSet | makeSet
deriving DecidableEq, Repr

/-- Variables. -/
inductive V where
  | this | l | l1 | l2 | t | t2 | f | r | x | i | j | s | n | b | e | k | v | m | os | found | result
deriving DecidableEq, Repr

/-- Member functions that are called. -/
inductive Mem where
  | begin_ | end_ | size | pushBack | reserve | find | insert | erase
  | append | contains | adjoin
deriving DecidableEq, Repr

inductive Expr where
  | v (x : V)
  | lit (t : Ty)
  | mem0 (o : Expr) (m : Mem)
  | mem1 (o : Expr) (m : Mem) (a : Expr)
  | idx (o i : Expr)
  | deref (e : Expr)
  | inc (e : Expr)
  | ne (a b : Expr)
  | not (e : Expr)
  | fst (e : Expr)
  | snd (e : Expr)
  | mk1 (t : Ty) (a : Expr)
  | mk2 (t : Ty) (a b : Expr)
  | call2 (f : Fn) (a b : Expr)
  | app1 (f : V) (a : Expr)
  | app2 (f : V) (a b : Expr)
  /-- `static_cast<t const&>(e)` -/ | cast (t : Ty) (e : Expr)
  /-- `os << e` -/ | out (os e : Expr)

inductive Stmt where
  | skip
  | seq (a b : Stmt)
  | ex (e : Expr)
  /-- `auto x=e;`, with a copy if `e` is not a new value -/ | auto (x : V) (e : Expr)
  /-- `t x;` -/ | decl (x : V) (t : Ty)
  /-- `t x(e);` -/ | decl1 (x : V) (t : Ty) (e : Expr)
  /-- `const t& x = e;` -/ | ref (x : V) (e : Expr)
  /-- `for (auto x : e) body` -/ | each (x : V) (e : Expr) (body : Stmt)
  /-- `while (c) body` -/ | while_ (c : Expr) (body : Stmt)
  | ite (c : Expr) (a b : Stmt)
  | ret (e : Expr)

infixr:50 " ;; " => Stmt.seq

/-- `for(auto i=first; i!=last; ++i) body`. -/
def forIter (i : V) (first last : Expr) (body : Stmt) : Stmt :=
  .auto i first ;; .while_ (.ne (.v i) last) (body ;; .ex (.inc (.v i)))

/-- `for(auto i=o.begin(); i!=o.end(); ++i) body`. -/
def forAll (i : V) (o : Expr) (body : Stmt) : Stmt := forIter i (.mem0 o .begin_) (.mem0 o .end_) body

/-- A parameter, and whether it is taken by value. -/
structure Decl where
  params : List (V × Ty × Bool)
  /-- the class of a member function -/ self : Option Ty := none
  /-- the base class initialised by a constructor -/ baseInit : Option (Ty × List Expr) := none
  ret : Option Ty := none
  body : Stmt := .skip
  /-- constraints of the template -/ given : List Req := []

/-- The printing loop (lines 51-59, 61-69, 127-135, 238-246): `first` is a local variable of type `bool`, left out. -/
def printLoop (c : V) : Stmt :=
  .each .x (.v c) (.ex (.out (.out (.v .os) (.lit .text)) (.v .x))) ;; .ex (.out (.v .os) (.lit .text)) ;; .ret (.out (.v .os) (.lit .text))

/-- `if (test) { return a; } …; return b;`. -/
def search (i : V) (o : Expr) (test : Expr) : Stmt :=
  forAll i o (.ite test (.ret (.lit .bool)) .skip) ;; .ret (.lit .bool)

/-- `while(iter!=c.end()) { if(test) { c.erase(iter++); } else { ++iter; } }`. -/
def eraseLoop (c : V) (test : Expr) : Stmt :=
  .auto .i (.mem0 (.v c) .begin_) ;;
  .while_ (.ne (.v .i) (.mem0 (.v c) .end_)) (.ite test (.ex (.mem1 (.v c) .erase (.inc (.v .i)))) (.ex (.inc (.v .i))))

/-- The declarations, with the template arguments `a`, `b` and `c`. -/
def Fn.decl (a b c : Ty) : Fn → Decl
  /- 82 -/ | .listVector => {
      params := [(.l, .vector a, false)], self := some (.list a), baseInit := some (.vector a, [.v .l]) }
  /- 83 -/ | .listValue => {
      params := [(.t, a, false)], self := some (.list a), baseInit := some (.vector a, [.lit .size, .v .t]) }
  /- 84-85 -/ | .listConv => {
      given := [.conv b a], params := [(.l, .vector b, false)], self := some (.list a),
      baseInit := some (.vector a, [.mem0 (.v .l) .begin_, .mem0 (.v .l) .end_]) }
  /- 86-87 -/ | .listExpl => {
      given := [.expl b a], params := [(.l, .vector b, false)], self := some (.list a),
      baseInit := some (.vector a, [.mem0 (.v .l) .begin_, .mem0 (.v .l) .end_]) }
  /- 88 -/ | .listAppend => {
      params := [(.t, a, false)], self := some (.list a), body := .ex (.mem1 (.v .this) .pushBack (.v .t)) }
  /- 89-90 -/ | .listAppendAll => {
      params := [(.t, .vector a, false)], self := some (.list a),
      body := forIter .i (.lit .size) (.mem0 (.v .t) .size) (.ex (.mem1 (.v .this) .pushBack (.idx (.v .t) (.v .i)))) }
  /- 91-92 -/ | .listConcatenate => {
      params := [(.t, .vector a, false)], self := some (.list a),
      body := forIter .i (.lit .size) (.mem0 (.v .t) .size) (.ex (.mem1 (.v .this) .pushBack (.idx (.v .t) (.v .i)))) }
  /- 94-100 -/ | .catenate => {
      params := [(.l1, .list a, false), (.l2, .list a, false)], ret := some (.list a),
      body := .decl1 .r (.list a) (.v .l1) ;; forAll .i (.v .l2) (.ex (.mem1 (.v .r) .append (.deref (.v .i)))) ;; .ret (.v .r) }
  /- 101-105 -/ | .catenateValue => {
      params := [(.l1, .list a, false), (.t2, a, false)], ret := some (.list a),
      body := .decl1 .r (.list a) (.v .l1) ;; .ex (.mem1 (.v .r) .append (.v .t2)) ;; .ret (.v .r) }
  /- 106-110 -/ | .apply => {
      params := [(.f, .fn1 a b, false), (.l, .list a, false)], ret := some (.list b),
      body := .decl .r (.list b) ;; .ex (.mem1 (.v .r) .reserve (.mem0 (.v .l) .size)) ;;
        .each .x (.v .l) (.ex (.mem1 (.v .r) .append (.app1 .f (.v .x)))) ;; .ret (.v .r) }
  /- 112-117 -/ | .elementwise => {
      params := [(.f, .fn1 a b, false), (.l, .list a, false)], ret := some (.list b),
      body := .decl .r (.list b) ;; .ex (.mem1 (.v .r) .reserve (.mem0 (.v .l) .size)) ;;
        forIter .i (.lit .size) (.mem0 (.v .l) .size) (.ex (.mem1 (.v .r) .append (.app1 .f (.idx (.v .l) (.v .i))))) ;; .ret (.v .r) }
  /- 119-125 -/ | .elementwise2 => {
      params := [(.f, .fn2 a b c, false), (.l1, .list a, false), (.l2, .list b, false)], ret := some (.list c),
      body := .ex (.ne (.mem0 (.v .l1) .size) (.mem0 (.v .l2) .size)) ;;
        .decl .r (.list c) ;; .ex (.mem1 (.v .r) .reserve (.mem0 (.v .l1) .size)) ;;
        forIter .i (.lit .size) (.mem0 (.v .l1) .size)
          (.ex (.mem1 (.v .r) .append (.app2 .f (.idx (.v .l1) (.v .i)) (.idx (.v .l2) (.v .i))))) ;; .ret (.v .r) }
  /- 51-59 -/ | .printArray => {
      params := [(.os, .os, false), (.l, .array a, false)], ret := some .os, body := printLoop .l }
  /- 61-69 -/ | .printShared => {
      params := [(.os, .os, false), (.l, .shared a, false)], ret := some .os, body := printLoop .l }
  /- 127-135 -/ | .printVector => {
      params := [(.os, .os, false), (.l, .vector a, false)], ret := some .os, body := printLoop .l }
  /- 155-158, with stlio.hpp:58-71 -/ | .printList => {
      params := [(.os, .os, false), (.l, .stdList a, false)], ret := some .os,
      body := .auto .i (.mem0 (.v .l) .begin_) ;; .auto .e (.mem0 (.v .l) .end_) ;; .ex (.out (.v .os) (.lit .text)) ;;
        .while_ (.ne (.v .i) (.v .e)) (.ex (.out (.v .os) (.deref (.v .i))) ;; .ex (.inc (.v .i)) ;;
          .ite (.ne (.v .i) (.v .e)) (.ex (.out (.v .os) (.lit .text))) .skip) ;; .ex (.out (.v .os) (.lit .text)) ;; .ret (.v .os) }
  /- 238-246 -/ | .printSet => {
      params := [(.os, .os, false), (.l, .stdSet a, false)], ret := some .os, body := printLoop .l }
  /- 292-300 -/ | .printMap => {
      params := [(.os, .os, false), (.l, .stdMap a b, false)], ret := some .os,
      body := .each .x (.v .l) (.ex (.out (.out (.out (.out (.v .os) (.lit .text)) (.fst (.v .x))) (.lit .text)) (.snd (.v .x)))) ;;
        .ex (.out (.v .os) (.lit .text)) ;; .ret (.out (.v .os) (.lit .text)) }
  /- 143 -/ | .linkedEmpty => {
      params := [], self := some (.linked a), baseInit := some (.stdList a, []) }
  /- 144 -/ | .linkedCount => {
      params := [(.n, .size, true)], self := some (.linked a), baseInit := some (.stdList a, [.v .n]) }
  /- 145 -/ | .linkedCountValue => {
      params := [(.n, .size, true), (.t, a, false)], self := some (.linked a),
      baseInit := some (.vector a, [.v .n, .v .t]) }
  /- 146 -/ | .linkedStd => {
      params := [(.l, .stdList a, false)], self := some (.linked a), baseInit := some (.stdList a, [.v .l]) }
  /- 147 -/ | .linkedList => {
      params := [(.l, .list b, false)], self := some (.linked a),
      baseInit := some (.stdList a, [.mem0 (.v .l) .begin_, .mem0 (.v .l) .end_]) }
  /- 148 -/ | .linkedLinked => {
      params := [(.l, .linked b, false)], self := some (.linked a),
      baseInit := some (.stdList a, [.mem0 (.v .l) .begin_, .mem0 (.v .l) .end_]) }
  /- 149, with iterators of a vector -/ | .linkedRange => {
      params := [(.b, .iter (.vector b), false), (.e, .iter (.vector b), false)], self := some (.linked a),
      baseInit := some (.stdList a, [.v .b, .v .e]) }
  /- 151 -/ | .linkedAppend => {
      params := [(.t, a, false)], self := some (.linked a), body := .ex (.mem1 (.v .this) .pushBack (.v .t)) }
  /- 152 -/ | .linkedAppendAll => {
      params := [(.t, .linked a, false)], self := some (.linked a),
      body := forIter .i (.lit .size) (.mem0 (.v .t) .size) (.ex (.mem1 (.v .this) .pushBack (.idx (.v .t) (.v .i)))) }
  /- 153 -/ | .linkedConcatenate => {
      params := [(.t, .linked a, false)], self := some (.linked a),
      body := forIter .i (.lit .size) (.mem0 (.v .t) .size) (.ex (.mem1 (.v .this) .pushBack (.idx (.v .t) (.v .i)))) }
  /- 169-170 -/ | .setVector => {
      given := [.conv b a], params := [(.s, .vector b, false)], self := some (.set a),
      baseInit := some (.stdSet a, [.mem0 (.v .s) .begin_, .mem0 (.v .s) .end_]) }
  /- 171-172 -/ | .setSet => {
      given := [.conv b a], params := [(.s, .stdSet b, false)], self := some (.set a),
      baseInit := some (.stdSet a, [.mem0 (.v .s) .begin_, .mem0 (.v .s) .end_]) }
  /- 173-174 -/ | .setExpl => {
      given := [.expl b a], params := [(.s, .stdSet b, false)], self := some (.set a), baseInit := some (.stdSet a, []),
      body := .each .x (.v .s) (.ex (.mem1 (.v .this) .insert (.mk1 a (.v .x)))) }
  /- 175 -/ | .setToList => {
      params := [], self := some (.set a), ret := some (.list a),
      body := .ret (.mk2 (.list a) (.mem0 (.v .this) .begin_) (.mem0 (.v .this) .end_)) }
  /- 176-177 -/ | .setContains => {
      params := [(.t, a, false)], self := some (.set a), ret := some .bool,
      body := .ret (.ne (.mem1 (.v .this) .find (.v .t)) (.mem0 (.v .this) .end_)) }
  /- 178-180 -/ | .setSubset => {
      params := [(.s, .stdSet a, false)], self := some (.set a), ret := some .bool,
      body := search .i (.v .s) (.not (.mem1 (.v .this) .contains (.deref (.v .i)))) }
  /- 181-183 -/ | .setDisjoint => {
      params := [(.s, .stdSet a, false)], self := some (.set a), ret := some .bool,
      body := search .i (.v .s) (.mem1 (.v .this) .contains (.deref (.v .i))) }
  /- 184-186 -/ | .setDisjointVector => {
      params := [(.l, .vector a, false)], self := some (.set a), ret := some .bool,
      body := search .i (.v .l) (.mem1 (.v .this) .contains (.deref (.v .i))) }
  /- 187-188 -/ | .setAdjoin => {
      params := [(.s, .stdSet a, false)], self := some (.set a), ret := some (.set a),
      body := forAll .i (.v .s) (.ex (.mem1 (.v .this) .insert (.deref (.v .i)))) ;; .ret (.v .this) }
  /- 189-192 -/ | .setRemove => {
      params := [(.t, a, false)], self := some (.set a), ret := some (.set a),
      body := .auto .i (.mem1 (.v .this) .find (.v .t)) ;;
        .ite (.ne (.v .i) (.mem0 (.v .this) .end_)) (.ex (.mem1 (.v .this) .erase (.v .i))) .skip ;; .ret (.v .this) }
  /- 193-196 -/ | .setRemoveAll => {
      params := [(.s, .stdSet a, false)], self := some (.set a), ret := some (.set a),
      body := eraseLoop .this (.ne (.mem1 (.v .s) .find (.deref (.v .i))) (.mem0 (.v .s) .end_)) ;; .ret (.v .this) }
  /- 197-200 -/ | .setRestrict => {
      params := [(.s, .stdSet a, false)], self := some (.set a), ret := some (.set a),
      body := eraseLoop .this (.ne (.mem1 (.v .s) .find (.deref (.v .i))) (.mem0 (.v .s) .end_)) ;; .ret (.v .this) }
  /- 201-204 -/ | .setRemoveVector => {
      params := [(.l, .vector b, false)], self := some (.set a), ret := some (.set a),
      body := forAll .i (.v .l) (.ex (.mem1 (.v .this) .erase (.cast a (.deref (.v .i))))) ;; .ret (.v .this) }
  /- 206-208 -/ | .applySet => {
      params := [(.f, .fn1 a b, false), (.s, .set a, false)], ret := some (.set b),
      body := .decl .r (.set b) ;; .each .x (.v .s) (.ex (.mem1 (.v .r) .adjoin (.app1 .f (.v .x)))) ;; .ret (.v .r) }
  /- 209-210 -/ | .joinSet => {
      params := [(.l1, .set a, true), (.l2, .set a, false)], ret := some (.set a),
      body := .ex (.mem1 (.v .l1) .adjoin (.v .l2)) ;; .ret (.v .l1) }
  /- 211-212 -/ | .contains => {
      params := [(.s, .stdSet a, false), (.t, a, false)], ret := some .bool,
      body := .ret (.ne (.mem1 (.v .s) .find (.v .t)) (.mem0 (.v .s) .end_)) }
  /- 213-215 -/ | .subset => {
      params := [(.l1, .stdSet a, false), (.l2, .stdSet a, false)], ret := some .bool,
      body := search .i (.v .l1) (.not (.call2 .contains (.v .l2) (.deref (.v .i)))) }
  /- 216-218 -/ | .disjoint => {
      params := [(.l1, .stdSet a, false), (.l2, .stdSet a, false)], ret := some .bool,
      body := search .i (.v .l1) (.call2 .contains (.v .l2) (.deref (.v .i))) }
  /- 219-221 -/ | .disjointVector => {
      params := [(.l1, .stdSet a, false), (.l2, .vector a, false)], ret := some .bool,
      body := search .i (.v .l2) (.call2 .contains (.v .l1) (.deref (.v .i))) }
  /- 222-223 -/ | .intersection => {
      params := [(.l1, .stdSet a, false), (.l2, .stdSet a, false)], ret := some (.set a),
      body := .decl1 .r (.set a) (.v .l1) ;; .ex (.call2 .restrict (.v .r) (.v .l2)) ;; .ret (.v .r) }
  /- 224-226 -/ | .intersectionVector => {
      params := [(.l1, .stdSet a, false), (.l2, .vector a, false)], ret := some (.set a),
      body := .decl .r (.set a) ;; forAll .i (.v .l2) (.ite (.call2 .contains (.v .l1) (.deref (.v .i)))
        (.ex (.mem1 (.v .r) .insert (.deref (.v .i)))) .skip) ;; .ret (.v .r) }
  /- 227-228 -/ | .difference => {
      params := [(.l1, .stdSet a, false), (.l2, .stdSet a, false)], ret := some (.set a),
      body := .decl1 .r (.set a) (.v .l1) ;; .ex (.call2 .remove (.v .r) (.v .l2)) ;; .ret (.v .r) }
  /- 229-232 -/ | .remove => {
      params := [(.r, .stdSet a, false), (.s, .stdSet a, false)], ret := some (.stdSet a),
      body := eraseLoop .r (.call2 .contains (.v .s) (.deref (.v .i))) ;; .ret (.v .r) }
  /- 233-236 -/ | .restrict => {
      params := [(.r, .stdSet a, false), (.s, .stdSet a, false)], ret := some (.stdSet a),
      body := eraseLoop .r (.not (.call2 .contains (.v .s) (.deref (.v .i)))) ;; .ret (.v .r) }
  /- 253-254 -/ | .mapConv => {
      given := [.conv b c], params := [(.m, .stdMap a b, false)], self := some (.map a c),
      baseInit := some (.stdMap a c, [.mem0 (.v .m) .begin_, .mem0 (.v .m) .end_]) }
  /- 257 -/ | .mapIndex => {
      params := [(.k, a, true)], self := some (.map a b), ret := some b,
      body := .ret (.idx (.cast (.stdMap a b) (.v .this)) (.v .k)) }
  /- 258 -/ | .mapIndexConst => {
      params := [(.k, a, true)], self := some (.map a b), ret := some b,
      body := .auto .i (.mem1 (.v .this) .find (.v .k)) ;; .ex (.ne (.v .i) (.mem0 (.v .this) .end_)) ;; .ret (.snd (.deref (.v .i))) }
  /- 259-260 -/ | .mapGet => {
      params := [(.k, a, false)], self := some (.map a b), ret := some b,
      body := .auto .i (.mem1 (.v .this) .find (.v .k)) ;; .ex (.ne (.v .i) (.mem0 (.v .this) .end_)) ;; .ret (.snd (.deref (.v .i))) }
  /- 261-262 -/ | .mapHasKey => {
      params := [(.k, a, false)], self := some (.map a b), ret := some .bool,
      body := .ret (.ne (.mem1 (.v .this) .find (.v .k)) (.mem0 (.v .this) .end_)) }
  /- 263-268 -/ | .mapValue => {
      params := [(.k, a, false)], self := some (.map a b), ret := some b,
      body := .auto .i (.mem1 (.v .this) .find (.v .k)) ;; .ex (.ne (.v .i) (.mem0 (.v .this) .end_)) ;; .ret (.snd (.deref (.v .i))) }
  /- 269-270 -/ | .mapInsertPair => {
      params := [(.k, .pair a b, false)], self := some (.map a b),
      body := .ex (.mem1 (.cast (.stdMap a b) (.v .this)) .insert (.v .k)) }
  /- 271-272 -/ | .mapInsert => {
      params := [(.k, a, false), (.v, b, false)], self := some (.map a b),
      body := .ex (.mem1 (.cast (.stdMap a b) (.v .this)) .insert (.mk2 (.pair a b) (.v .k) (.v .v))) }
  /- 273-274 -/ | .mapAdjoin => {
      params := [(.m, .stdMap a b, false)], self := some (.map a b),
      body := forAll .i (.v .m) (.ex (.mem1 (.v .this) .insert (.deref (.v .i)))) }
  /- 275-276 -/ | .mapRemoveKeys => {
      params := [(.s, .set a, false)], self := some (.map a b),
      body := forAll .i (.v .s) (.ex (.mem1 (.v .this) .erase (.deref (.v .i)))) }
  /- 277-279 -/ | .mapKeys => {
      params := [], self := some (.map a b), ret := some (.set a),
      body := .decl .r (.set a) ;; forAll .i (.v .this) (.ex (.mem1 (.v .r) .insert (.fst (.deref (.v .i))))) ;; .ret (.v .r) }
  /- 280-282 -/ | .mapValues => {
      params := [], self := some (.map a b), ret := some (.list b),
      body := .decl .r (.list b) ;; forAll .i (.v .this) (.ex (.mem1 (.v .r) .append (.snd (.deref (.v .i))))) ;; .ret (.v .r) }
  /- 284-285 -/ | .joinMap => {
      params := [(.l1, .map a b, true), (.l2, .map a b, false)], ret := some (.map a b),
      body := .ex (.mem1 (.v .l1) .adjoin (.v .l2)) ;; .ret (.v .l1) }
  /- 286-287 -/ | .insert => {
      params := [(.m, .map a b, false), (.k, c, false), (.v, b, false)], ret := some b,
      body := .ret (.snd (.deref (.mem1 (.cast (.stdMap a b) (.v .m)) .insert (.mk2 (.pair c b) (.v .k) (.v .v))))) }
  /- 288-291 -/ | .restrictKeys => {
      params := [(.m, .stdMap a b, false), (.k, .stdSet a, false)], ret := some (.map a b),
      body := .decl .result (.map a b) ;; .ref .s (.cast (.set a) (.v .k)) ;;
        forAll .i (.v .m) (.ite (.mem1 (.v .s) .contains (.fst (.deref (.v .i)))) (.ex (.mem1 (.v .result) .insert (.deref (.v .i)))) .skip) ;;
        .ret (.v .result) }
  /- 303-308 -/ | .uniqueElements => {
      params := [(.l, .vector a, false)], ret := some .bool,
      body := .decl .found (.set a) ;; forAll .i (.v .l) (.ite (.mem1 (.v .found) .contains (.deref (.v .i))) (.ret (.lit .bool))
        (.ex (.mem1 (.v .found) .insert (.deref (.v .i))))) ;; .ret (.lit .bool) }
  /- 310-315 -/ | .duplicateElements => {
      params := [(.l, .vector a, false)], ret := some (.set a),
      body := .decl .result (.set a) ;; .decl .found (.set a) ;; forAll .i (.v .l) (.ite (.mem1 (.v .found) .contains (.deref (.v .i)))
        (.ex (.mem1 (.v .result) .insert (.deref (.v .i)))) (.ex (.mem1 (.v .found) .insert (.deref (.v .i))))) ;; .ret (.v .result) }
  /- 318 -/ | .makeArray => {
      params := [(.t, a, false)], ret := some (.array a), body := .ret (.mk2 (.array a) (.lit .size) (.v .t)) }
  /- 319 -/ | .makeArrayVector => {
      params := [(.l, .vector a, false)], ret := some (.array a),
      body := .ret (.mk2 (.array a) (.mem0 (.v .l) .begin_) (.mem0 (.v .l) .end_)) }
  /- 320 -/ | .makeArrayArray => {
      params := [(.l, .array a, false)], ret := some (.array a), body := .ret (.mk1 (.array a) (.v .l)) }
  /- 322 -/ | .makeList => {
      params := [(.t, a, false)], ret := some (.list a), body := .ret (.mk2 (.list a) (.lit .size) (.v .t)) }
  /- 323 -/ | .makeListVector => {
      params := [(.l, .vector a, false)], ret := some (.list a), body := .ret (.mk1 (.list a) (.v .l)) }
  /- 324 -/ | .makeListArray => {
      params := [(.l, .array a, false)], ret := some (.list a), body := .ret (.mk1 (.list a) (.v .l)) }
  /- 325 -/ | .makeListSet => {
      params := [(.s, .set a, false)], ret := some (.list a),
      body := .ret (.mk2 (.list a) (.mem0 (.v .s) .begin_) (.mem0 (.v .s) .end_)) }
  /- 327 -/ | .makeSet => {
      params := [(.l, .vector a, false)], ret := some (.set a), body := .ret (.mk1 (.set a) (.v .l)) }

/-- What a template needs when it is used with three template arguments; `none`: ill-formed. -/
abbrev Inst := Fn → Ty → Ty → Ty → Option (List Req)

/-- A type, whether the expression is a new value (not a variable or element), and what it needs. -/
abbrev Typed := Ty × Bool × List Req

abbrev Env := List (V × Ty)

/-- Member functions without arguments. -/
def member0 (o : Ty) : Mem → Option Typed
  | .begin_ | .end_ => o.std.item.map fun _ => (.iter o.std, true, [])
  | .size => o.std.item.map fun _ => (.size, true, [])
  | _ => none

/-- Member functions with one argument of type `a`, which is a new value if `p`. -/
def member1 (inst : Inst) (o : Ty) (m : Mem) (a : Ty) (p : Bool) : Option Typed :=
  match m, o.std with
  | .pushBack, .vector t => (passes a t).map fun r => (.bool, true, r ++ if p then [.move t] else [.copy t])
  | .pushBack, .stdList t => (passes a t).map fun r => (.bool, true, r ++ if p then [.move t] else [.copy t])
  | .reserve, .vector t => if a = .size then some (.bool, true, [.move t]) else none
  | .find, .stdSet t => (passes a t).map fun r => (.iter (.stdSet t), true, r ++ [.less t])
  | .find, .stdMap k t => (passes a k).map fun r => (.iter (.stdMap k t), true, r ++ [.less k])
  | .insert, .stdSet t => (passes a t).map fun r => (.iter (.stdSet t), true, r ++ (if p then [.move t] else [.copy t]) ++ [.less t])
  | .insert, .stdMap k t =>
    match o, a with
    -- `Map::insert` (269) hides that of the base; the elements of a map are pairs with a const key, which are converted
    | .map _ _, .pair c d => (inst .mapInsertPair k t t).map fun q => (.bool, true, makes (.pair c d) (.pair k t) ++ q)
    | _, .pair c d => some (.iter (.stdMap k t), true, (if p ∧ a = .pair k t then [.move k, .move t] else makes (.pair c d) (.pair k t)) ++ [.less k])
    | _, _ => none
  | .erase, .stdSet t => if a = .iter (.stdSet t) then some (.bool, true, []) else (passes a t).map fun r => (.bool, true, r ++ [.less t])
  | .erase, .stdMap k t => if a = .iter (.stdMap k t) then some (.bool, true, []) else (passes a k).map fun r => (.bool, true, r ++ [.less k])
  | .append, .vector t =>
    match o with
    | .list _ =>
      if a.std = .vector t then (inst .listAppendAll t t t).map fun r => (.bool, true, r)
      else (passes a t).bind fun r => (inst .listAppend t t t).map fun q => (.bool, true, r ++ q)
    | _ => none
  | .contains, .stdSet t =>
    match o with
    | .set _ => (passes a t).bind fun r => (inst .setContains t t t).map fun q => (.bool, true, r ++ q)
    | _ => none
  | .adjoin, .stdSet t =>
    match o with
    | .set _ => (passes a (.stdSet t)).bind fun r => (inst .setAdjoin t t t).map fun q => (.set t, false, r ++ q)
    | _ => none
  | .adjoin, .stdMap k t =>
    match o with
    | .map _ _ => (passes a (.stdMap k t)).bind fun r => (inst .mapAdjoin k t t).map fun q => (.bool, true, r ++ q)
    | _ => none
  | _, _ => none

/-- Lines of the functions that are called by others, and where a name is found: before the caller, or through an argument of a class of
the namespace (argument-dependent lookup). -/
def Fn.line : Fn → Nat
  | .contains => 211
  | .subset => 213
  | .disjoint => 216
  | .disjointVector => 219
  | .intersection => 222
  | .intersectionVector => 224
  | .difference => 227
  | .remove => 229
  | .restrict => 233
  | _ => 0

/-- Classes of namespace Helper, which make its functions visible. -/
def Ty.helper : Ty → Bool
  | .list _ | .linked _ | .set _ | .map _ _ | .array _ | .shared _ => true
  | _ => false

/-- Types of expressions in the body of the function `self`. -/
def check (inst : Inst) (self : Fn) (env : Env) : Expr → Option Typed
  | .v x => (env.lookup x).map fun t => (t, false, [])
  | .lit t => some (t, true, [])
  | .mem0 o m => (check inst self env o).bind fun (t, _, r) => (member0 t m).map fun (u, p, q) => (u, p, r ++ q)
  | .mem1 o m a =>
    (check inst self env o).bind fun (t, _, r) => (check inst self env a).bind fun (u, p, q) =>
      (member1 inst t m u p).map fun (w, p', q') => (w, p', r ++ q ++ q')
  | .idx o i =>
    (check inst self env o).bind fun (t, _, r) => (check inst self env i).bind fun (u, _, q) =>
      match t.std with
      | .vector e | .array e | .shared e => if u = .size then some (e, false, r ++ q) else none
      | .stdMap k e => (passes u k).map fun w => (e, false, r ++ q ++ w ++ copies k ++ [.dflt e, .less k])
      | _ => none
  | .deref e =>
    (check inst self env e).bind fun (t, _, r) =>
      match t with
      | .iter c => c.item.map fun u => (u, false, r)
      | _ => none
  | .inc e =>
    (check inst self env e).bind fun (t, _, r) =>
      match t with
      | .iter _ | .size => some (t, true, r)
      | _ => none
  | .ne a b =>
    (check inst self env a).bind fun (t, _, r) => (check inst self env b).bind fun (u, _, q) =>
      if t = u then (match t with | .iter _ | .size => some (.bool, true, r ++ q) | _ => none) else none
  | .not e => (check inst self env e).bind fun (t, _, r) => if t = .bool then some (.bool, true, r) else none
  | .fst e =>
    (check inst self env e).bind fun (t, p, r) =>
      match t with
      | .pair a _ => some (a, p, r)
      | _ => none
  | .snd e =>
    (check inst self env e).bind fun (t, p, r) =>
      match t with
      | .pair _ b => some (b, p, r)
      | _ => none
  | .mk1 t a => (check inst self env a).bind fun (u, _, r) => (ctor t [u]).map fun q => (t, true, r ++ q)
  | .mk2 t a b =>
    (check inst self env a).bind fun (u, _, r) => (check inst self env b).bind fun (w, _, q) =>
      (ctor t [u, w]).map fun q' => (t, true, r ++ q ++ q')
  | .call2 f a b =>
    (check inst self env a).bind fun (u, _, r) => (check inst self env b).bind fun (w, _, q) =>
      if f.line < self.line ∨ u.helper ∨ w.helper then
        match f, u.std, w.std with
        | .contains, .stdSet t, _ => if w = t then (inst .contains t t t).map fun q' => (.bool, true, r ++ q ++ q') else none
        | .restrict, .stdSet t, .stdSet t' => if t = t' then (inst .restrict t t t).map fun q' => (.stdSet t, false, r ++ q ++ q') else none
        | .remove, .stdSet t, .stdSet t' => if t = t' then (inst .remove t t t).map fun q' => (.stdSet t, false, r ++ q ++ q') else none
        | _, _, _ => none
      else none
  | .app1 f a =>
    (check inst self env a).bind fun (u, _, r) =>
      match env.lookup f with
      | some (.fn1 t w) => if u = t then some (w, true, r) else none
      | _ => none
  | .app2 f a b =>
    (check inst self env a).bind fun (u, _, r) => (check inst self env b).bind fun (w, _, q) =>
      match env.lookup f with
      | some (.fn2 t t' z) => if u = t ∧ w = t' then some (z, true, r ++ q) else none
      | _ => none
  | .cast t e =>
    (check inst self env e).bind fun (u, _, r) =>
      if u = t ∨ u.base = some t ∨ t.base = some u then some (t, false, r)
      else match u, t with
        | .elem a, .elem b => some (.elem b, true, r ++ [.expl (.elem a) (.elem b)])
        | _, _ => none
  | .out o e =>
    (check inst self env o).bind fun (t, _, r) => (check inst self env e).bind fun (u, _, q) =>
      if t = .os then (prints u).map fun w => (.os, false, r ++ q ++ w) else none

/-- Returning a value of type `t` from a function with the result type `r`. -/
def returns (t : Ty) (r : Option Ty) : Bool := r = some t

/-- Statements: what they need, and the variables after them. -/
def checkS (inst : Inst) (self : Fn) (ret : Option Ty) : Stmt → Env → Option (List Req × Env)
  | .skip, env => some ([], env)
  | .seq a b, env => (checkS inst self ret a env).bind fun (r, env1) => (checkS inst self ret b env1).map fun (q, env2) => (r ++ q, env2)
  | .ex e, env => (check inst self env e).map fun (_, _, r) => (r, env)
  | .auto x e, env => (check inst self env e).map fun (t, p, r) => (r ++ (if p then [] else copies t), (x, t) :: env)
  | .decl x t, env => (ctor t []).map fun r => (r, (x, t) :: env)
  | .decl1 x t e, env => (check inst self env e).bind fun (u, _, r) => (ctor t [u]).map fun q => (r ++ q, (x, t) :: env)
  | .ref x e, env => (check inst self env e).map fun (t, _, r) => (r, (x, t) :: env)
  | .each x e b, env =>
    (check inst self env e).bind fun (t, _, r) => t.std.item.bind fun u =>
      (checkS inst self ret b ((x, u) :: env)).map fun (q, _) => (r ++ copies u ++ q, env)
  | .while_ c b, env =>
    (check inst self env c).bind fun (t, _, r) =>
      if t = .bool then (checkS inst self ret b env).map fun (q, _) => (r ++ q, env) else none
  | .ite c a b, env =>
    (check inst self env c).bind fun (t, _, r) =>
      if t = .bool then
        (checkS inst self ret a env).bind fun (q, _) => (checkS inst self ret b env).map fun (q', _) => (r ++ q ++ q', env)
      else none
  | .ret e, env => (check inst self env e).bind fun (t, _, r) => if returns t ret then some (r, env) else none

/-- Several arguments. -/
def checkAll (inst : Inst) (self : Fn) (env : Env) : List Expr → Option (List Ty × List Req)
  | [] => some ([], [])
  | e :: es => (check inst self env e).bind fun (t, _, r) => (checkAll inst self env es).map fun (ts, q) => (t :: ts, r ++ q)

/-- A call with variables as arguments: parameters taken by value are copied; a constructor initialises its base class, which has to
be one. -/
def checkFn (inst : Inst) (f : Fn) (a b c : Ty) : Option (List Req) :=
  let d := f.decl a b c
  let env : Env := (d.self.map fun t => [(V.this, t)]).getD [] ++ d.params.map fun p => (p.1, p.2.1)
  let ps := d.params.flatMap fun p => if p.2.2 then copies p.2.1 else []
  let initOk : Option (List Req) :=
    match d.baseInit with
    | none => some []
    | some (t, es) =>
      if d.self.bind Ty.base = some t then (checkAll inst f env es).bind fun (ts, r) => (ctor t ts).map fun q => r ++ q
      else none
  initOk.bind fun r => (checkS inst f d.ret d.body env).map fun (q, _) => d.given ++ ps ++ r ++ q

/-- Instantiation, looking at templates that are called to a depth. -/
def inst : Nat → Inst
  | 0 => fun _ _ _ _ => some [.deeper]
  | n + 1 => checkFn (inst n)

end Helper.Wf
