/-!
# Comparators of `std::set` and `std::map`

The C++ standard ([associative.reqmts]) only requires the comparator to be a strict weak order;
two keys are *equivalent* when neither is less than the other. The models below depend on the
comparator only; the laws are a separate class.
-/
set_option linter.unusedSectionVars false
namespace Helper

/-- The comparator `std::less<T>` (i.e. `operator<`) used by `std::set<T>` and `std::map<T,_>`. -/
class Cmp (α : Type u) where
  lt : α → α → Bool

namespace Cmp

/-- Key equivalence of the ordered containers: neither is less than the other. -/
def equiv {α : Type u} [Cmp α] (a b : α) : Bool := !lt a b && !lt b a

end Cmp

/-- The strict weak order laws. -/
class StrictWeak (α : Type u) [Cmp α] : Prop where
  irrefl : ∀ a : α, Cmp.lt a a = false
  trans : ∀ {a b c : α}, Cmp.lt a b = true → Cmp.lt b c = true → Cmp.lt a c = true
  equivTrans : ∀ {a b c : α}, Cmp.equiv a b = true → Cmp.equiv b c = true → Cmp.equiv a c = true

/-- Strict total orders: equivalent keys are equal. -/
class StrictTotal (α : Type u) [Cmp α] : Prop extends StrictWeak α where
  eq_of_equiv : ∀ {a b : α}, Cmp.equiv a b = true → a = b

namespace Cmp
variable {α : Type u} [Cmp α]

theorem equiv_iff {a b : α} : equiv a b = true ↔ lt a b = false ∧ lt b a = false := by
  simp [equiv]

theorem equiv_false_iff {a b : α} : equiv a b = false ↔ lt a b = true ∨ lt b a = true := by
  unfold equiv; cases lt a b <;> cases lt b a <;> simp

theorem equiv_comm (a b : α) : equiv a b = equiv b a := by
  simp [equiv, Bool.and_comm]

variable [StrictWeak α]

@[simp] theorem lt_irrefl (a : α) : lt a a = false := StrictWeak.irrefl a

@[simp] theorem equiv_refl (a : α) : equiv a a = true := by simp [equiv]

theorem equiv_symm {a b : α} (h : equiv a b = true) : equiv b a = true := by
  rw [equiv_comm]; exact h

theorem equiv_trans {a b c : α} (h : equiv a b = true) (h' : equiv b c = true) :
    equiv a c = true := StrictWeak.equivTrans h h'

theorem lt_asymm {a b : α} (h : lt a b = true) : lt b a = false := by
  cases h' : lt b a
  · rfl
  · have := StrictWeak.trans h h'; simp at this

theorem lt_of_equiv_left {a b c : α} (h : equiv a b = true) : lt a c = lt b c := by
  have key : ∀ {x y : α}, equiv x y = true → lt x c = true → lt y c = true := by
    intro x y hxy hxc
    cases hyc : lt y c
    · cases hcy : lt c y
      · have h1 : equiv y c = true := by simp [equiv, hyc, hcy]
        have h2 := equiv_trans hxy h1
        rw [equiv_iff] at h2; simp [h2.1] at hxc
      · have h2 := StrictWeak.trans hxc hcy
        rw [equiv_iff] at hxy; simp [hxy.1] at h2
    · rfl
  cases h1 : lt a c <;> cases h2 : lt b c <;> try rfl
  · have := key (equiv_symm h) h2; simp [h1] at this
  · have := key h h1; simp [h2] at this

theorem lt_of_equiv_right {a b c : α} (h : equiv a b = true) : lt c a = lt c b := by
  have key : ∀ {x y : α}, equiv x y = true → lt c x = true → lt c y = true := by
    intro x y hxy hxc
    cases hyc : lt c y
    · cases hcy : lt y c
      · have h1 : equiv y c = true := by simp [equiv, hyc, hcy]
        have h2 := equiv_trans hxy h1
        rw [equiv_iff] at h2; simp [h2.2] at hxc
      · have h2 := StrictWeak.trans hcy hxc
        rw [equiv_iff] at hxy; simp [hxy.2] at h2
    · rfl
  cases h1 : lt c a <;> cases h2 : lt c b <;> try rfl
  · have := key (equiv_symm h) h2; simp [h1] at this
  · have := key h h1; simp [h2] at this

theorem equiv_of_equiv_left {a b c : α} (h : equiv a b = true) : equiv a c = equiv b c := by
  unfold equiv; rw [lt_of_equiv_left h, lt_of_equiv_right h]

theorem equiv_of_equiv_right {a b c : α} (h : equiv a b = true) : equiv c a = equiv c b := by
  unfold equiv; rw [lt_of_equiv_left h, lt_of_equiv_right h]

theorem equiv_false_of_lt {a b : α} (h : lt a b = true) : equiv a b = false := by
  simp [equiv, h]

end Cmp

theorem Cmp.equiv_eq {α : Type u} [Cmp α] [StrictTotal α] [DecidableEq α] (a b : α) :
    Cmp.equiv a b = decide (a = b) := by
  cases h : Cmp.equiv a b
  · symm; rw [decide_eq_false_iff_not]; rintro rfl; simp at h
  · symm; rw [decide_eq_true_iff]; exact StrictTotal.eq_of_equiv h

/-- `operator<` of the integers. -/
instance : Cmp Int := ⟨fun a b => decide (a < b)⟩
/-- `operator<` of unsigned integers. -/
instance : Cmp Nat := ⟨fun a b => decide (a < b)⟩

instance : StrictTotal Int where
  irrefl := by simp [Cmp.lt]
  trans := by intro a b c; simp [Cmp.lt]; omega
  equivTrans := by intro a b c; simp [Cmp.lt, Cmp.equiv]; omega
  eq_of_equiv := by intro a b; simp [Cmp.lt, Cmp.equiv]; omega

instance : StrictTotal Nat where
  irrefl := by simp [Cmp.lt]
  trans := by intro a b c; simp [Cmp.lt]; omega
  equivTrans := by intro a b c; simp [Cmp.lt, Cmp.equiv]; omega
  eq_of_equiv := by intro a b; simp [Cmp.lt, Cmp.equiv]; omega

/-- A comparator that is a strict weak but not a total order: integers compared by their tens.
Used in examples to show that the theorems are not limited to total orders. -/
structure Tens where
  n : Nat
deriving DecidableEq, Repr

instance : Cmp Tens := ⟨fun a b => decide (a.n / 10 < b.n / 10)⟩

instance : StrictWeak Tens where
  irrefl := by simp [Cmp.lt]
  trans := by intro a b c; simp [Cmp.lt]; omega
  equivTrans := by intro a b c; simp [Cmp.lt, Cmp.equiv]; omega

example : Cmp.equiv (Tens.mk 31) (Tens.mk 38) = true ∧ Tens.mk 31 ≠ Tens.mk 38 := by decide

end Helper
