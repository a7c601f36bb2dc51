import Verif.Wf.Model
set_option linter.constructorNameAsVariable false
/-!
# Property C127: which functions of container.hpp compile
-/
namespace Helper.Wf

abbrev A : Ty := .elem 0
abbrev B : Ty := .elem 1
abbrev C : Ty := .elem 2

/-- `f` compiles with the element types `a`, `b`, `c` if they provide what satisfies `p`. Three levels are enough (`C127_needs`: nothing
is left out as too deep). -/
def Compiles (p : Req → Prop) (f : Fn) (a b c : Ty) : Prop := ∃ l, inst 3 f a b c = some l ∧ ∀ r ∈ l, p r

/-- Specification: what each function needs. -/
def needs : Fn → Option (List Req)
  | .listVector | .listValue | .listAppend | .listAppendAll | .listConcatenate | .catenate | .catenateValue => some [.copy A]
  | .listConv => some [.conv B A, .expl B A]
  | .listExpl => some [.expl B A]
  | .apply => some [.copy A, .copy B, .move B]
  | .elementwise => some [.copy B, .move B]
  | .elementwise2 => some [.copy C, .move C]
  | .printArray | .printShared | .printVector | .printSet => some [.print A, .copy A]
  | .printList => some [.print A]
  | .printMap => some [.print A, .print B, .copy A, .copy B]
  | .linkedEmpty => some []
  | .linkedCount => some [.dflt A]
  | .linkedStd | .linkedAppend => some [.copy A]
  | .linkedList | .linkedLinked | .linkedRange => some [.expl B A]
  | .linkedCountValue | .linkedAppendAll | .linkedConcatenate => none
  | .setVector | .setSet => some [.conv B A, .expl B A, .less A]
  | .setExpl => some [.copy B, .expl B A, .move A, .less A]
  | .setToList => some [.copy A]
  | .setContains | .setSubset | .setDisjoint | .setDisjointVector | .setRemove | .setRemoveAll | .setRestrict => some [.less A]
  | .setAdjoin => some [.copy A, .less A]
  | .setRemoveVector => some [.expl B A, .less A]
  | .applySet => some [.copy A, .copy B, .less B, .conv B (.stdSet B)]
  | .contains | .subset | .disjoint | .disjointVector | .remove | .restrict => some [.less A]
  | .joinSet | .intersection | .intersectionVector | .difference => some [.copy A, .less A]
  | .mapConv => some [.conv B C, .expl B C, .copy A, .less A]
  | .mapIndex => some [.copy A, .dflt B, .less A]
  | .mapIndexConst => some [.copy A, .less A]
  | .mapGet | .mapHasKey | .mapValue | .mapRemoveKeys => some [.less A]
  | .mapInsertPair | .mapAdjoin | .joinMap | .restrictKeys => some [.copy A, .copy B, .less A]
  | .mapInsert => some [.copy A, .copy B, .move A, .move B, .less A]
  | .mapKeys => some [.copy A, .less A]
  | .mapValues => some [.copy B]
  | .insert => some [.copy C, .copy B, .expl C A, .less A]
  | .uniqueElements | .duplicateElements => some [.copy A, .less A]
  | .makeArray | .makeArrayVector | .makeArrayArray | .makeList | .makeListVector | .makeListSet => some [.copy A]
  | .makeListArray => some [.copy A, .conv (.array A) A]
  | .makeSet => some [.copy A, .less A]

/-- Two lists of needs, with the same members. -/
def same : Option (List Req) → Option (List Req) → Bool
  | none, none => true
  | some l, some m => l.all (m.contains ·) && m.all (l.contains ·)
  | _, _ => false

theorem compiles_of_same {p : Req → Prop} {f : Fn} {a b c : Ty} {m : Option (List Req)} (h : same (inst 3 f a b c) m = true) :
    Compiles p f a b c ↔ ∃ l, m = some l ∧ ∀ r ∈ l, p r := by
  unfold Compiles
  cases hi : inst 3 f a b c with
  | none =>
    cases m with
    | none => simp
    | some _ => rw [hi] at h; simp [same] at h
  | some l =>
    cases m with
    | none => rw [hi] at h; simp [same] at h
    | some m =>
      rw [hi] at h
      simp only [same, Bool.and_eq_true, List.all_eq_true, List.contains_iff_mem] at h
      constructor
      · rintro ⟨l', e, hl⟩
        cases e
        exact ⟨m, rfl, fun r hr => hl r (h.2 r hr)⟩
      · rintro ⟨m', e, hm⟩
        cases e
        exact ⟨l, rfl, fun r hr => hm r (h.1 r hr)⟩

/-- C127: a function compiles exactly if the element types provide what is listed in `needs`. -/
theorem C127_needs (p : Req → Prop) (f : Fn) : Compiles p f A B C ↔ ∃ l, needs f = some l ∧ ∀ r ∈ l, p r :=
  compiles_of_same (by cases f <;> decide +kernel)

/-- An ordinary element type provides everything that does not mention containers. -/
def Ordinary : Req → Prop
  | .copy (.elem _) | .move (.elem _) | .dflt (.elem _) | .less (.elem _) | .print (.elem _) | .conv (.elem _) (.elem _)
  | .expl (.elem _) (.elem _) => True
  | _ => False

instance : DecidablePred Ordinary := fun r => by
  unfold Ordinary; split <;> infer_instance

/-- The five functions that do not compile. -/
def broken : List Fn := [.linkedCountValue, .linkedAppendAll, .linkedConcatenate, .applySet, .makeListArray]

theorem decides (p : Req → Prop) [DecidablePred p] (f : Fn) : Compiles p f A B C ↔
    (match needs f with | none => false | some l => l.all (fun r => decide (p r))) = true := by
  rw [C127_needs]
  cases needs f with
  | none => simp
  | some l => simp

/-- C127: with ordinary element types, all functions but five compile. -/
theorem C127_ordinary_partial (f : Fn) : Compiles Ordinary f A B C ↔ f ∉ broken := by
  rw [decides]
  cases f <;> decide +kernel

/-- C127: the same if the element types are one and the same. -/
theorem C127_one_partial (f : Fn) : Compiles Ordinary f A A A ↔ f ∉ broken := by
  have h : ∀ m, same (inst 3 f A A A) m = true →
      (Compiles Ordinary f A A A ↔ (match m with | none => false | some l => l.all (fun r => decide (Ordinary r))) = true) := by
    intro m hm
    rw [compiles_of_same hm]
    cases m with
    | none => simp
    | some l => simp
  have hs : same (inst 3 f A A A) (inst 3 f A A A) = true := by
    cases f <;> decide +kernel
  rw [h _ hs]
  cases f <;> decide +kernel

/-- C127, false: `LinkedList(n,t)` and appending a `LinkedList` compile for no element type; `apply` on a `Set` and `make_list` of an `Array`
only for element types that are themselves made from, or turned into, a container of their own. -/
theorem C127_refuted :
    (∀ p f, f ∈ [Fn.linkedCountValue, .linkedAppendAll, .linkedConcatenate] → ¬ Compiles p f A B C) ∧
    (∀ p, Compiles p .applySet A B C → p (.conv B (.stdSet B))) ∧
    (∀ p, Compiles p .makeListArray A B C → p (.conv (.array A) A)) := by
  refine ⟨fun p f hf => ?_, fun p h => ?_, fun p h => ?_⟩
  · rw [C127_needs]
    rintro ⟨l, hl, _⟩
    simp only [List.mem_cons, List.not_mem_nil, or_false] at hf
    rcases hf with rfl | rfl | rfl <;> cases hl
  · obtain ⟨l, hl, h⟩ := (C127_needs p .applySet).mp h
    cases hl
    exact h _ (by simp)
  · obtain ⟨l, hl, h⟩ := (C127_needs p .makeListArray).mp h
    cases hl
    exact h _ (by simp)

/-- An element type that cannot be copied, such as a `std::unique_ptr`. -/
def MoveOnly (r : Req) : Prop := Ordinary r ∧ ∀ t, r ≠ .copy t

instance : DecidablePred MoveOnly := fun r => by
  unfold MoveOnly
  cases r with
  | copy t => exact .isFalse fun h => h.2 t rfl
  | _ => exact decidable_of_iff (Ordinary _) ⟨fun h => ⟨h, by simp⟩, fun h => h.1⟩

/-- C127: what can be used with elements that cannot be copied: queries and removal, and the conversions; not printing, except of
a `std::list`. -/
theorem C127_moveOnly (f : Fn) : Compiles MoveOnly f A B C ↔ f ∈
    [Fn.listConv, .listExpl, .printList, .linkedEmpty, .linkedCount, .linkedList, .linkedLinked, .linkedRange, .setVector, .setSet,
      .setContains, .setSubset, .setDisjoint, .setDisjointVector, .setRemove, .setRemoveAll, .setRestrict, .setRemoveVector,
      .contains, .subset, .disjoint, .disjointVector, .remove, .restrict, .mapGet, .mapHasKey, .mapValue, .mapRemoveKeys] := by
  rw [decides]
  cases f <;> decide +kernel

/-- An element type without a default constructor. -/
def NoDefault (r : Req) : Prop := Ordinary r ∧ ∀ t, r ≠ .dflt t

instance : DecidablePred NoDefault := fun r => by
  unfold NoDefault
  cases r with
  | dflt t => exact .isFalse fun h => h.2 t rfl
  | _ => exact decidable_of_iff (Ordinary _) ⟨fun h => ⟨h, by simp⟩, fun h => h.1⟩

/-- C127: only `LinkedList(n)` and the subscripts of a `Map` that is not const need a default constructor. -/
theorem C127_noDefault (f : Fn) : Compiles NoDefault f A B C ↔ f ∉ broken ∧ f ≠ .linkedCount ∧ f ≠ .mapIndex := by
  rw [decides]
  cases f <;> decide +kernel

/-- Specification: the functions of container.hpp that each function calls, and their element types. Constructors are not listed: their needs are part
of the checker. -/
def calls : Fn → List (Fn × Ty × Ty)
  | .catenate | .catenateValue => [(.listAppend, A, A)]
  | .apply | .elementwise | .mapValues => [(.listAppend, B, B)]
  | .elementwise2 => [(.listAppend, C, C)]
  | .setSubset | .setDisjoint | .setDisjointVector | .uniqueElements | .duplicateElements => [(.setContains, A, A)]
  | .restrictKeys => [(.setContains, A, A), (.mapInsertPair, A, B)]
  | .mapAdjoin => [(.mapInsertPair, A, B)]
  | .applySet => [(.setAdjoin, B, B)]
  | .joinSet => [(.setAdjoin, A, A)]
  | .subset | .disjoint | .disjointVector | .intersectionVector | .remove | .restrict => [(.contains, A, A)]
  | .intersection => [(.restrict, A, A)]
  | .difference => [(.remove, A, A)]
  | .joinMap => [(.mapAdjoin, A, B)]
  | _ => []

/-- Stands for what the function `g` needs. -/
def mark (g : Fn) (a b : Ty) : Req := .expl (.pair (.elem g.ctorIdx) a) b

def isMark : Req → Bool
  | .expl (.pair _ _) _ => true
  | _ => false

/-- C127: which functions are instantiated by the use of another, and with which types: exactly those listed in `calls`. -/
theorem C127_calls (f : Fn) (l : List Req) (h : checkFn (fun g a b _ => some [mark g a b]) f A B C = some l) :
    l.filter isMark = (calls f).map fun (g, a, b) => mark g a b := by
  have : (checkFn (fun g a b _ => some [mark g a b]) f A B C).all
      (fun l => decide (l.filter isMark = (calls f).map fun (g, a, b) => mark g a b)) = true := by
    cases f <;> decide +kernel
  rw [h] at this
  exact of_decide_eq_true this

/-- Specification: what the functions that call others need for their own part: copies of parameters, of loop variables and of results,
and the conversion of the elements of a map to the parameter of `insert`. -/
def own : Fn → List Req
  | .catenate | .catenateValue | .joinSet => [.copy A]
  | .apply => [.copy A, .move B]
  | .elementwise => [.move B]
  | .elementwise2 => [.move C]
  | .applySet => [.copy A, .conv B (.stdSet B)]
  | .intersection | .intersectionVector | .difference | .uniqueElements | .duplicateElements => [.copy A, .less A]
  | .mapAdjoin | .joinMap | .restrictKeys => [.copy A, .copy B]
  | _ => []

/-- C127: what a function that calls others needs apart from what these need. -/
theorem C127_own (f : Fn) (l : List Req) (hf : calls f ≠ []) (h : checkFn (fun g a b _ => some [mark g a b]) f A B C = some l) (r : Req) :
    r ∈ l ∧ isMark r = false ↔ r ∈ own f := by
  have hs : ((calls f).isEmpty || (checkFn (fun g a b _ => some [mark g a b]) f A B C).all
      (fun l => same (some (l.filter (!isMark ·))) (some (own f)))) = true := by
    cases f <;> decide +kernel
  rw [h] at hs
  have hne : (calls f).isEmpty = false := by
    cases hc : calls f with
    | nil => exact absurd hc hf
    | cons _ _ => rfl
  rw [hne] at hs
  simp only [Bool.false_or, Option.all_some, same, Bool.and_eq_true, List.all_eq_true, List.contains_iff_mem, List.mem_filter,
    Bool.not_eq_true'] at hs
  exact ⟨fun hr => hs.1 r hr, fun hr => hs.2 r hr⟩

example : (checkFn (fun g a b _ => some [mark g a b]) .joinMap A B C).isSome = true := by decide +kernel

/-- Not vacuous. -/
example : Compiles Ordinary .intersection A B C ∧ ¬ Compiles Ordinary .applySet A B C ∧ ¬ Compiles MoveOnly .printVector A B C ∧
    ¬ Compiles NoDefault .mapIndex A B C := by
  refine ⟨(C127_ordinary_partial _).mpr (by decide), fun h => (C127_ordinary_partial _).mp h (by decide),
    fun h => absurd ((C127_moveOnly _).mp h) (by decide), fun h => ((C127_noDefault _).mp h).2.2 rfl⟩

end Helper.Wf
