import Verif.Wf.Props
import Verif.Overload.Props
/-!
# Property C127 for element types that are no classes

The checker of `Wf/Model.lean` takes element types as classes. For arithmetic types the choice between the constructors of `Array`
(array.hpp:81-104) matters too, which is modelled in `Overload/Model.lean`.
-/
namespace Helper.Wf

/-- C127 is false: `make_array` of a value (container.hpp:318) compiles for classes that can be copied, but not for `unsigned int`, as the
two arguments of `Array<unsigned int>(1u,t)` have the same type and are taken for iterators. `unsigned int` is the only arithmetic type
for which this happens. -/
theorem C127_unsigned_refuted :
    Compiles Ordinary .makeArray A B C ∧ (∀ v, Overload.makeArray (.prim .uint v) = none) ∧
    ∀ (t : Overload.Ty) (v : Int), t.arith = true → (Overload.makeArray (.prim t v) = none ↔ t = .uint) := by
  refine ⟨(C127_ordinary_partial _).mpr (by decide), fun v => ?_, fun t v ht => ?_⟩
  · rw [(Overload.C84_value .uint v (.inl rfl)).2]; rfl
  · rw [(Overload.C84_value t v (.inl ht)).2]
    by_cases h : t = .uint <;> simp [h]

/-- The two models agree on `make_list` of an `Array`: no ordinary element type will do. -/
theorem C127_makeListArray (t : Overload.Ty) (l : List Overload.Val) :
    ¬ Compiles Ordinary .makeListArray A B C ∧ Overload.makeList (.array t l) = none :=
  ⟨fun h => (C127_ordinary_partial _).mp h (by decide), (Overload.C84_list_refuted t l).2.2⟩

/-- Not vacuous: another arithmetic type. -/
example : Overload.makeArray (.prim .int 3) = some (.array .int [.prim .int 3]) := rfl

end Helper.Wf
