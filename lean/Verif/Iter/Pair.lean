/-!
# C144: dereferencing a `PairIterator`

iterator.hpp:116-143. `dereference` returns `std::make_pair(*_iter1,*_iter2)` as a `std::pair<I1*,I2*>`: the elements have to be converted to pointers to
the iterators. `distance_to` (line 130) is declared and not defined.

Simplifications: element types are made from arithmetic types, `std::nullptr_t`, classes, functions, pointers, arrays and `const`; `volatile`, array bounds
and pointers to members are left out. Iterators are pointers to objects or objects of classes; what the classes do is given by a `World`.
-/
set_option linter.unusedSectionVars false
namespace Helper.Iter.PairIt

/-- Types of elements. -/
inductive Ty where
  | arith (n : Nat)
  | null
  | cls (n : Nat)
  | fn (n : Nat)
  | ptr (t : Ty)
  | arr (t : Ty)
  | const (t : Ty)
deriving DecidableEq, Repr

/-- The types of iterators, as types. -/
inductive It where
  /-- `T*` -/ | ptr (t : Ty)
  /-- a class -/ | cls (n : Nat)
deriving DecidableEq, Repr

def It.ty : It → Ty
  | .ptr t => .ptr t
  | .cls n => .cls n

/-- The classes of a program: the type of the elements that `operator*` gives, base classes, and the pointers that the objects are converted to. -/
structure World where
  star : Nat → Option Ty
  derives : Nat → Nat → Bool
  conv : Nat → Ty → Bool

/-- Without `const` at the top. -/
def Ty.core : Ty → Ty
  | .const t => t.core
  | t => t

def Ty.isConst : Ty → Bool
  | .const _ => true
  | _ => false

/-- What `std::make_pair` stores for an argument (`std::decay`). -/
def decay : Ty → Ty
  | .const t => decay t
  | .arr t => .ptr t
  | .fn n => .ptr (.fn n)
  | t => t

/-- Qualification conversion of a pointer to the first type to a pointer to the second one [conv.qual]: `const` is added at a level only if it is there at
all levels above. -/
def qual : Ty → Ty → Bool
  | .const y, x => x.isConst && qual y x
  | .ptr y, x =>
    match x.core with
    | .ptr x' => y == x' || (x.isConst && qual y x')
    | _ => false
  | y, x => y == x.core

/-- Conversion of a pointer to the first type to a pointer to a base class [conv.ptr]. -/
def upcast (w : World) (y x : Ty) : Bool :=
  (!y.isConst || x.isConst) && (match y.core, x.core with
    | .cls d, .cls b => w.derives d b
    | _, _ => false)

/-- Implicit conversion of a value of a decayed type to a pointer to `x`. -/
def converts (w : World) : Ty → Ty → Bool
  | .null, _ => true
  | .ptr y, x => qual y x || upcast w y x
  | .cls c, x => w.conv c (.ptr x)
  | _, _ => false

/-- The type of `*i`. -/
def star (w : World) : It → Option Ty
  | .ptr t => some t
  | .cls n => w.star n

/-- iterator.hpp:142-143 `dereference`: it compiles if both elements are converted. -/
def dereferences (w : World) (i j : It) : Bool :=
  match star w i, star w j with
  | some s, some t => converts w (decay s) i.ty && converts w (decay t) j.ty
  | _, _ => false

/-! ## Specification -/

/-- A value that becomes a pointer to `x` by itself: `nullptr`, or an object of a class with such a conversion. -/
def BecomesPtr (w : World) (t x : Ty) : Prop := t.core = .null ∨ ∃ c, t.core = .cls c ∧ w.conv c (.ptr x) = true

/-- Levels of pointers and arrays. -/
def depth : Ty → Nat
  | .ptr t => depth t + 1
  | .arr t => depth t + 1
  | .const t => depth t
  | _ => 0

theorem depth_core (t : Ty) : depth t.core = depth t := by
  induction t with
  | const t ih => exact ih
  | _ => rfl

/-- Conversions keep the number of levels. -/
theorem qual_depth : ∀ (y x : Ty), qual y x = true → depth y = depth x := by
  intro y
  induction y with
  | const y ih =>
    intro x h
    simp only [qual, Bool.and_eq_true] at h
    exact ih x h.2
  | ptr y ih =>
    intro x h
    unfold qual at h
    rw [← depth_core x]
    cases hc : x.core with
    | ptr x' =>
      rw [hc] at h
      simp only [Bool.or_eq_true, beq_iff_eq, Bool.and_eq_true] at h
      rcases h with rfl | ⟨_, h⟩
      · rfl
      · exact congrArg (· + 1) (ih x' h)
    | _ => rw [hc] at h; cases h
  | _ =>
    intro x h
    simp only [qual, beq_iff_eq] at h
    rw [← depth_core x, ← h]

/-- The decayed type, by cases. -/
theorem decay_core (t : Ty) : decay t = decay t.core := by
  induction t with
  | const t ih => exact ih
  | _ => rfl

theorem core_not_const (t u : Ty) : t.core ≠ .const u := by
  induction t with
  | const t ih => exact ih
  | _ => intro h; cases h

/-- An element behind a pointer is not converted to a pointer to that pointer. -/
theorem pointer_component (w : World) (t : Ty) : converts w (decay t) (.ptr t) = true ↔ BecomesPtr w t (.ptr t) := by
  have hup : ∀ y, upcast w y (.ptr t) = false := by
    intro y
    unfold upcast
    show (_ && match y.core, Ty.ptr t with | .cls d, .cls b => w.derives d b | _, _ => false) = false
    cases y.core <;> simp
  have hd := depth_core t
  rw [decay_core]
  unfold BecomesPtr
  cases hc : t.core with
  | null => simp [decay, converts]
  | cls c => simp [decay, converts]
  | arith n => simp [decay, converts]
  | const u => exact absurd hc (core_not_const t u)
  | fn n =>
    simp only [decay, converts, hup, Bool.or_false, reduceCtorEq, false_and, exists_false, or_self, iff_false]
    intro h; simp [qual, Ty.core] at h
  | ptr u =>
    rw [hc] at hd
    simp only [decay, converts, hup, Bool.or_false, reduceCtorEq, false_and, exists_false, or_self, iff_false]
    intro h
    have := qual_depth _ _ h
    simp only [depth] at this hd
    omega
  | arr u =>
    rw [hc] at hd
    simp only [decay, converts, hup, Bool.or_false, reduceCtorEq, false_and, exists_false, or_self, iff_false]
    intro h
    have := qual_depth _ _ h
    simp only [depth] at this hd
    omega

/-- An element of an iterator of a class. -/
theorem class_component (w : World) (n : Nat) (t : Ty) : converts w (decay t) (.cls n) = true ↔
    BecomesPtr w t (.cls n) ∨ (∃ d, (t.core = .ptr (.cls d) ∨ t.core = .arr (.cls d)) ∧ (d = n ∨ w.derives d n = true)) := by
  have hq : ∀ y, (qual y (.cls n) || upcast w y (.cls n)) = true ↔ ∃ d, y = .cls d ∧ (d = n ∨ w.derives d n = true) := by
    intro y
    cases y <;> simp [qual, upcast, Ty.core, Ty.isConst]
  rw [decay_core]
  unfold BecomesPtr
  cases hc : t.core with
  | null => simp [decay, converts]
  | cls c => simp [decay, converts]
  | arith n => simp [decay, converts]
  | const u => exact absurd hc (core_not_const t u)
  | fn n => simp only [decay, converts, hq]; simp
  | ptr u => simp only [decay, converts, hq]; simp
  | arr u => simp only [decay, converts, hq]; simp

/-! ## Theorems -/

/-- What the element of an iterator has to be like. -/
def Dereferenceable (w : World) : It → Prop
  | .ptr t => BecomesPtr w t (.ptr t)
  | .cls n => ∃ t, w.star n = some t ∧
      (BecomesPtr w t (.cls n) ∨ ∃ d, (t.core = .ptr (.cls d) ∨ t.core = .arr (.cls d)) ∧ (d = n ∨ w.derives d n = true))

/-- **C144** (partial): exactly when `dereference` compiles. -/
theorem C144_iff_partial (w : World) (i j : It) : dereferences w i j = true ↔ Dereferenceable w i ∧ Dereferenceable w j := by
  have h : ∀ i : It, Dereferenceable w i ↔ ∃ t, star w i = some t ∧ converts w (decay t) i.ty = true := by
    intro i
    cases i with
    | ptr t => simp [Dereferenceable, star, It.ty, pointer_component]
    | cls n => simp only [Dereferenceable, star, It.ty, class_component]
  rw [h, h]
  unfold dereferences
  cases star w i <;> cases star w j <;> simp

/-- **C144, refuted**: with pointers as iterators, `dereference` compiles for no elements that are numbers, pointers, arrays or functions, whatever the
other iterator is. -/
theorem C144_pointers_refuted (w : World) (t : Ty) (j : It) (hn : t.core ≠ .null) (hc : ∀ c, t.core ≠ .cls c) :
    dereferences w (.ptr t) j = false ∧ dereferences w j (.ptr t) = false := by
  have h : ¬ Dereferenceable w (.ptr t) := by
    rintro (h | ⟨c, h, _⟩)
    · exact hn h
    · exact hc c h
  constructor
  · exact Bool.eq_false_iff.2 fun e => h ((C144_iff_partial w _ _).1 e).1
  · exact Bool.eq_false_iff.2 fun e => h ((C144_iff_partial w _ _).1 e).2

/-- **C144, refuted**: nor with iterators of classes whose elements are numbers, or pointers to anything but iterators of that class. -/
theorem C144_classes_refuted (w : World) (n : Nat) (j : It) {t : Ty} (ht : w.star n = some t)
    (h : (∃ k, t.core = .arith k) ∨ (∃ u, t.core = .ptr u ∧ ∀ d, u ≠ .cls d)) :
    dereferences w (.cls n) j = false ∧ dereferences w j (.cls n) = false := by
  have h' : ¬ Dereferenceable w (.cls n) := by
    rintro ⟨u, hu, hd⟩
    rw [ht] at hu
    cases hu
    rcases h with ⟨k, hk⟩ | ⟨u, hu, hne⟩
    · rcases hd with (hd | ⟨c, hd, _⟩) | ⟨d, hd | hd, _⟩ <;> rw [hk] at hd <;> cases hd
    · rcases hd with (hd | ⟨c, hd, _⟩) | ⟨d, hd | hd, _⟩ <;> rw [hu] at hd <;> cases hd
      exact hne d rfl
  constructor
  · exact Bool.eq_false_iff.2 fun e => h' ((C144_iff_partial w _ _).1 e).1
  · exact Bool.eq_false_iff.2 fun e => h' ((C144_iff_partial w _ _).1 e).2

/-- A program with a class 0 of iterators over `int`, a class 1 whose elements are pointers to its own iterators (a list of iterators into itself), a
class 2 that is converted to `Elem**`, and a class 3 of iterators derived from class 1. -/
def program : World where
  star n := match n with | 0 => some (.arith 0) | 1 => some (.ptr (.cls 3)) | _ => none
  derives d b := d == 3 && b == 1
  conv c t := c == 2 && t == .ptr (.ptr (.cls 2))

example : dereferences program (.ptr (.arith 0)) (.ptr (.arith 0)) = false ∧ dereferences program (.cls 0) (.cls 0) = false ∧
    dereferences program (.cls 1) (.ptr (.const .null)) = true ∧ dereferences program (.ptr (.cls 2)) (.cls 1) = true ∧
    dereferences program (.ptr (.const (.cls 2))) (.cls 1) = false := by decide

/-- The conversions of pointers: `int**` to `const int* const*`, but not to `const int**`. -/
example : qual (.ptr (.arith 0)) (.const (.ptr (.const (.arith 0)))) = true ∧ qual (.ptr (.arith 0)) (.ptr (.const (.arith 0))) = false ∧
    qual (.arith 0) (.const (.arith 0)) = true ∧ qual (.const (.arith 0)) (.arith 0) = false := by decide

end Helper.Iter.PairIt
