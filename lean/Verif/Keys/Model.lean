import Verif.SetC.Model
import Verif.MapC.Model
import Verif.LRU.Model
import Verif.BinWord.Model
/-!
# The orders of words, lists, pairs, sets and maps

`Set`, `Map` and `LRUCache` order their elements, keys and labels by `std::less`, that is by `operator<`. The library defines one for `BinaryWord`
(binary_word.hpp:138-147); those of lists, pairs, sets and maps are the ones of the standard library, as `List`, `LinkedList`, `Set` and `Map` are
derived from its containers (container.hpp:71, 137, 161, 249).
-/
namespace Helper.Keys

universe u v
variable {α : Type u} {β : Type v}

/-- `std::lexicographical_compare` [alg.lex.comparison], which is `operator<` of `std::vector`, `std::list`, `std::set` and `std::map`. -/
def lexLt [Cmp α] : List α → List α → Bool
  | [], [] => false
  | [], _ :: _ => true
  | _ :: _, [] => false
  | x :: l, y :: m => if Cmp.lt x y then true else if Cmp.lt y x then false else lexLt l m

/-- A `List` or `LinkedList` as an element of an ordered container (container.hpp:71, 137). -/
def Seq (α : Type u) : Type u := List α

instance [Cmp α] : Cmp (Seq α) := ⟨lexLt⟩

/-- `operator<` of `std::pair` [pairs.spec]. -/
instance [Cmp α] [Cmp β] : Cmp (α × β) := ⟨fun p q => Cmp.lt p.1 q.1 || (!Cmp.lt q.1 p.1 && Cmp.lt p.2 q.2)⟩

/-- A `Set` as an element (container.hpp:161): its elements are increasing. -/
def SetKey (α : Type u) [Cmp α] : Type u := { s : List α // OSet.Sorted s }

instance [Cmp α] : Cmp (SetKey α) := ⟨fun s t => lexLt s.1 t.1⟩

/-- A `Map` as an element (container.hpp:249). -/
def MapKey (α : Type u) (β : Type v) [Cmp α] : Type (max u v) := { m : List (α × β) // OMap.Sorted m }

instance [Cmp α] [Cmp β] : Cmp (MapKey α β) := ⟨fun s t => lexLt s.1 t.1⟩

/-- A `BinaryWord` as an element; `std::less` calls binary_word.hpp:138-147, which is a better match than the operator of the base class. -/
def WordKey : Type := BinWord.Word

instance : Cmp WordKey := ⟨fun w v => match BinWord.lt w v with | .ok b => b | _ => false⟩

instance : DecidableEq WordKey := inferInstanceAs (DecidableEq (List Bool))
instance [DecidableEq α] : DecidableEq (Seq α) := inferInstanceAs (DecidableEq (List α))

end Helper.Keys
