import Verif.Basic
/-!
# Model of the choice of printers by name lookup (stlio.hpp:57-129, 188-223, container.hpp:51-69, 127-135, 155-158, 238-246, 292-300)

The printers of containers are templates. An expression `os << x` in the body of a template, with `x` of a type that depends on the
parameters, finds the functions declared in the enclosing namespace before the template (and the template itself), and those of
the namespaces associated with the type of `x`, wherever they are declared. The model decides whether an expression
`os << x` compiles, the whole of container.hpp being included. An element type (`leaf`) is a type with a printer in its own
namespace, or a built-in or standard type with a printer; what matters is whether its namespace is `Helper`. Printers
that the client declares for standard types are not considered.
-/
namespace Helper.Lookup

inductive Ty where
  | leaf (inHelper : Bool)
  /-- `Helper::Array` -/ | array (t : Ty)
  /-- `Helper::SharedArray` -/ | shared (t : Ty)
  /-- `std::vector` -/ | vector (t : Ty)
  /-- `std::list` -/ | list (t : Ty)
  /-- `std::set` -/ | set (t : Ty)
  /-- `std::map` -/ | map (k t : Ty)
  /-- `Helper::List`, derived from `std::vector` -/ | hlist (t : Ty)
  /-- `Helper::LinkedList`, derived from `std::list` -/ | hlinked (t : Ty)
  /-- `Helper::Set`, derived from `std::set` -/ | hset (t : Ty)
  /-- `Helper::Map`, derived from `std::map` -/ | hmap (k t : Ty)
  /-- `std::pair` -/ | pair (s t : Ty)
  /-- `std::tuple` -/ | tuple (ts : List Ty)

/-- The printers of container.hpp, all in namespace `Helper`. -/
inductive Printer where
  | array | shared | vector | list | set | map
deriving DecidableEq, Repr

/-- The places where an element is printed: the bodies of printers, of `write_sequence` (stlio.hpp:63) and `write_tuple`
(stlio.hpp:193-199), of the printers of namespace `std`, and a client in namespace `Helper` or using it. -/
inductive Site where
  | body (p : Printer) | writeSequence | writeTuple | std | client
deriving DecidableEq, Repr

/-- The printers of `Helper` declared before a place, in the order of the files: stlio.hpp before container.hpp. -/
def visible : Site → List Printer
  | .client => [.array, .shared, .vector, .list, .set, .map]
  | .body .array => [.array]
  | .body .shared => [.array, .shared]
  | .body .vector => [.array, .shared, .vector]
  | .body .list => [.array, .shared, .vector, .list]
  | .body .set => [.array, .shared, .vector, .list, .set]
  | .body .map => [.array, .shared, .vector, .list, .set, .map]
  | .writeSequence => []
  | .writeTuple => []
  | .std => []

mutual
/-- Namespace `Helper` is associated with the type: the namespace of a template or of a base class of its
specialisation, and those associated with its arguments. -/
def assoc : Ty → Bool
  | .leaf h => h
  | .array _ => true
  | .shared _ => true
  | .vector t => assoc t
  | .list t => assoc t
  | .set t => assoc t
  | .map k t => assoc k || assoc t
  | .hlist _ => true
  | .hlinked _ => true
  | .hset _ => true
  | .hmap _ _ => true
  | .pair s t => assoc s || assoc t
  | .tuple ts => assocAny ts
def assocAny : List Ty → Bool
  | [] => false
  | t :: ts => assoc t || assocAny ts
end

/-- The printer is found from a place for an argument of type `t`. -/
def found (s : Site) (p : Printer) (t : Ty) : Bool := (visible s).contains p || assoc t

mutual
/-- `os << x` compiles at place `s` for `x` of type `t`: its printer is found, and the expressions in its body compile. The
printers of namespace `std` are always found, `std` being associated with pairs and tuples. -/
def prints : Site → Ty → Bool
  | _, .leaf _ => true
  | s, .array t => found s .array (.array t) && prints (.body .array) t
  | s, .shared t => found s .shared (.shared t) && prints (.body .shared) t
  | s, .vector t => found s .vector (.vector t) && prints (.body .vector) t
  | s, .list t => found s .list (.list t) && prints .writeSequence t
  | s, .set t => found s .set (.set t) && prints (.body .set) t
  | s, .map k t => found s .map (.map k t) && (prints (.body .map) k && prints (.body .map) t)
  | s, .hlist t => found s .vector (.hlist t) && prints (.body .vector) t
  | s, .hlinked t => found s .list (.hlinked t) && prints .writeSequence t
  | s, .hset t => found s .set (.hset t) && prints (.body .set) t
  | s, .hmap k t => found s .map (.hmap k t) && (prints (.body .map) k && prints (.body .map) t)
  | _, .pair a b => prints .std a && prints .std b
  -- stlio.hpp:222 calls `write_tuple`, of namespace `Helper`, from namespace `std`; an empty tuple has no `get<-1>`
  | _, .tuple ts => assocAny ts && printsAll ts
/-- The components of a tuple, printed by `write_tuple`. -/
def printsAll : List Ty → Bool
  | [] => true
  | t :: ts => prints .writeTuple t && printsAll ts
end

end Helper.Lookup
