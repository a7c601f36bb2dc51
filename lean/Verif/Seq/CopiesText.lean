import Verif.Seq.Copies
import Verif.Seq.Props
set_option linter.unusedSectionVars false
/-!
# Property C145: the texts are those of the printers of C18 and C22
-/
namespace Helper.Seq.Copies
open Helper.Seq OStream

def items : Vals → List Val
  | .nil => []
  | .cons v vs => v :: items vs

/-- The entries of a map. -/
def entries : List (Val × Val) → Vals
  | [] => .nil
  | (k, v) :: es => .cons (.node .entry (.cons k (.cons v .nil))) (entries es)

/-- An element printed as a whole. -/
def wr (os : OStream) (v : Val) : OStream := os.put (text v)

theorem writes_wr : Writes wr text := by
  intro os x hf hw; simp [wr, put, hf, hw]

theorem sepText_more (sep : List Char) (t : List Char) : ∀ ts : List (List Char), sepText sep (t :: ts) = t ++ ts.flatMap (sep ++ ·) := by
  intro ts
  induction ts generalizing t with
  | nil => simp [sepText]
  | cons u ts ih => rw [sepText, ih u]; simp

theorem textRest_eq (k : Kind) : (vs : Vals) → textRest k vs = ((items vs).map text).flatMap (k.separator ++ ·) ++ k.closing
  | .nil => by simp [textRest, items]
  | .cons v vs => by simp [textRest, items, textRest_eq k vs]

theorem text_node (k : Kind) (vs : Vals) (h : items vs ≠ []) :
    text (.node k vs) = k.opening ++ (sepText k.separator ((items vs).map text) ++ k.closing) := by
  cases vs with
  | nil => simp [items] at h
  | cons v vs => simp [text, textRest_eq, items, sepText_more]

theorem items_entries (es : List (Val × Val)) :
    (items (entries es)).map text = es.map (fun e => text e.1 ++ [':'] ++ text e.2) := by
  induction es with
  | nil => rfl
  | cons e es ih =>
    simp only [entries, items, List.map_cons, ih]
    simp [text, textRest, Kind.opening, Kind.separator, Kind.closing]

/-- The text of a container is what the printers of C18 and C22 write, given the texts of its items. -/
theorem C145_writers (vs : Vals) (a b : Val) (es : List (Val × Val)) :
    text (.node .array vs) = (printVector wr fresh (items vs)).out ∧ text (.node .vector vs) = (printVector wr fresh (items vs)).out ∧
    text (.node .shared vs) = (printVector wr fresh (items vs)).out ∧ text (.node .set vs) = (printSet wr fresh (items vs)).out ∧
    text (.node .list vs) = (printList wr fresh (items vs)).out ∧
    text (.node .map (entries es)) = (printMap wr wr fresh es).out ∧
    text (.node .pair (.cons a (.cons b .nil))) = (printPair wr wr fresh (a, b)).out ∧
    (items vs ≠ [] → (printTuple ((items vs).map (fun v os => wr os v)) fresh).map (·.out) = some (text (.node .tuple vs))) := by
  have h0 : ∀ k : Kind, items vs = [] → text (.node k vs) = k.emptyOpening ++ k.closing := by
    intro k h
    cases vs with
    | nil => simp [text]
    | cons => simp [items] at h
  refine ⟨?_, ?_, ?_, ?_, ?_, ?_, ?_, ?_⟩
  · rw [C18_printVector writes_wr fresh rfl]
    by_cases h : items vs = []
    · rw [h0 _ h, h]; rfl
    · rw [text_node _ _ h]; simp [written, fresh, Kind.opening, Kind.separator, Kind.closing]
  · rw [C18_printVector writes_wr fresh rfl]
    by_cases h : items vs = []
    · rw [h0 _ h, h]; rfl
    · rw [text_node _ _ h]; simp [written, fresh, Kind.opening, Kind.separator, Kind.closing]
  · rw [C18_printVector writes_wr fresh rfl]
    by_cases h : items vs = []
    · rw [h0 _ h, h]; rfl
    · rw [text_node _ _ h]; simp [written, fresh, Kind.opening, Kind.separator, Kind.closing]
  · rw [C18_printSet writes_wr fresh rfl]
    by_cases h : items vs = []
    · rw [h0 _ h, h]; rfl
    · rw [text_node _ _ h]; simp [written, fresh, Kind.opening, Kind.separator, Kind.closing]
  · rw [C18_printList writes_wr fresh rfl]
    by_cases h : items vs = []
    · rw [h0 _ h, h]; rfl
    · rw [text_node _ _ h]; simp [written, fresh, Kind.opening, Kind.separator, Kind.closing]
  · obtain ⟨h1, h2⟩ := C22_printMap writes_wr writes_wr fresh rfl
    cases es with
    | nil => rw [h2]; rfl
    | cons e es =>
      rw [h1 _ (by simp), text_node _ _ (by simp [entries, items]), items_entries]
      have e1 : (fun e : Val × Val => text e.1 ++ [':'] ++ text e.2) = entryText text text [':'] := by
        funext e; simp [entryText]
      rw [e1]
      simp [written, fresh, Kind.opening, Kind.separator, Kind.closing]
  · rw [C22_printPair writes_wr writes_wr fresh rfl]
    simp [text, textRest, written, fresh, Kind.opening, Kind.separator, Kind.closing, sepText]
  · intro h
    rw [C22_printTuple_partial _ ((items vs).map text) (by simpa using h) (by simp) (by
      intro i hi os hf hw
      simp only [List.getElem_map]
      exact writes_wr os _ hf hw) fresh rfl, text_node _ _ h]
    simp [written, fresh, Kind.opening, Kind.separator, Kind.closing]

example : (printMap wr wr fresh [(.leaf 0 ['k'], .leaf 1 ['v'])]).out = "{ k:v }".toList := by decide +kernel
example : items (.cons (.leaf 0 ['a']) .nil) ≠ [] := by simp [items]

/-! Runs. -/

example : output (run two 6).2.trace = "[[a,b],[]]".toList := by decide +kernel
example : (run two 5).1 = .exn := by decide +kernel
example : ((paths two).map weight).sum = 4 ∧ clash two = false ∧ tidy two = true := by decide +kernel
/-- the first copies of a vector fail: nothing is written -/
example : (run two 1).2.trace = [.copy 0, .destroy 0] := by decide +kernel
/-- an entry of a map is copied with key and value, and printed by reference -/
def aMap : Val := .node .map (.cons (.node .entry (.cons (.leaf 0 ['k']) (.cons (.leaf 1 ['v']) .nil))) .nil)
example : (run aMap 9).2.trace = [.copy 0, .copy 1, .text ['{', ' '], .text [], .item ['k'], .text [':'], .item ['v'], .text [], .text [],
    .destroy 0, .destroy 1, .text [], .text [' ', '}']] := by decide +kernel
example : output (run aMap 9).2.trace = "{ k:v }".toList := by decide +kernel
/-- undefined when the first copy is destroyed -/
example : (run vs 9).1 = .ub ∧ (run vs 0).1 = .ub ∧ output (run vs 9).2.trace = "[[a]".toList := by decide +kernel
/-- a shared array alone, or in a list, is fine -/
def ls2 : Val := .node .list (.cons (.node .shared (.cons (.leaf 0 ['a']) .nil)) .nil)
example : (run ls2 2).1 = .ok ∧ copies (run ls2 2).2.trace = 1 ∧ (paths ls2).map weight = [1] := by decide +kernel
/-- the elements of arrays are copied singly when the array itself is printed -/
def aa : Val := .node .array (.cons (.leaf 0 ['a']) (.cons (.leaf 1 ['b']) .nil))
example : tidy aa = true ∧ tidy va = false ∧ (run aa 2).2.trace = [.copy 0, .text ['['], .item ['a'], .destroy 0] := by decide +kernel
/-- lists, pairs and tuples: no copies -/
def ls : Val := .node .list (.cons (.node .pair (.cons (.leaf 0 ['a']) (.cons (.leaf 1 ['b']) .nil))) .nil)
example : copies (run ls 2).2.trace = 0 ∧ (run ls 2).1 = .ok ∧ output (run ls 2).2.trace = "[(a,b)]".toList := by decide +kernel
example : output (run (.node .map .nil) 0).2.trace = "{ }".toList ∧ output (run (.node .set .nil) 0).2.trace = "{}".toList := by decide +kernel
example : (run two 6).1 = .ok ∧ ∀ p ∈ paths two, ∀ k ∈ p, k = .array ∨ k = .vector ∨ k = .set := by decide +kernel

end Helper.Seq.Copies
