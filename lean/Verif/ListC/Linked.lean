import Verif.ListC.Props
set_option linter.unusedSectionVars false
/-!
# Model of `LinkedList` (container.hpp:137-154) and property C80

A `std::list` is the list of its elements. Not modelled, because they do not compile when they are used: the constructor from a
count and a value (it initialises `std::vector`, which is no base), `append(LinkedList)` and `concatenate` (they use
`operator[]`, which `std::list` does not have). Allocation failure is not modelled.
-/
namespace Helper.ListC

variable {α : Type u} {β : Type v}

/-- container.hpp:143 `LinkedList()`. -/
def linkedEmpty : List α := []

/-- container.hpp:144 `LinkedList(n)`: the argument, here of type `size_t`, is converted to `unsigned int`. -/
def linkedCount (dflt : α) (n : Nat) : List α := List.replicate (n % 2 ^ 32) dflt

/-- container.hpp:146 from `std::list`, 147 and 148 from `List<X>` and `LinkedList<X>`; `f` converts an element. -/
def linkedConvert (f : α → β) (l : List α) : List β := l.map f

/-- container.hpp:149 `LinkedList(b,e)` for iterators at the positions `b` and `e` of a sequence. -/
def linkedRange (l : List α) (b e : Nat) : Res (List α) :=
  if b ≤ e ∧ e ≤ l.length then .ok ((l.drop b).take (e - b)) else .ub .badBounds

/-- container.hpp:149 `LinkedList(b,e)` if both arguments have the same integer type as the elements: the constructor of
`std::list` chosen is the one from a count and a value. -/
def linkedIntegers (b e : Nat) : List Nat := List.replicate b e

/-- container.hpp:151 `append(t)`. -/
def linkedAppend (l : List α) (t : α) : List α := l ++ [t]

/-- C80: the elements of a linked list are the ones that it was constructed from, in order, followed by the appended ones; two
equal integers give a count and a value. -/
theorem C80_linked (f : α → β) (l : List α) (ts : List β) (t : β) :
    (linkedEmpty : List α).length = 0 ∧
    (linkedConvert f l).length = l.length ∧ (∀ i : Nat, (linkedConvert f l)[i]? = l[i]?.map f) ∧
    (linkedAppend ts t).length = ts.length + 1 ∧ (∀ i, i < ts.length → (linkedAppend ts t)[i]? = ts[i]?) ∧ (linkedAppend ts t)[ts.length]? = some t ∧
    (∀ b e, b ≤ e → e ≤ l.length → ∃ r, linkedRange l b e = .ok r ∧ r.length = e - b ∧ ∀ i, i < e - b → r[i]? = l[b + i]?) ∧
    (∀ b e, linkedRange l b e = .ub .badBounds ↔ e < b ∨ l.length < e) ∧
    (∀ b e, (linkedIntegers b e).length = b ∧ ∀ x ∈ linkedIntegers b e, x = e) := by
  refine ⟨rfl, by simp [linkedConvert], by simp [linkedConvert], by simp [linkedAppend], fun i hi => ?_, by simp [linkedAppend], fun b e h1 h2 => ?_, fun b e => ?_, fun b e => ⟨by simp [linkedIntegers], fun x hx => List.eq_of_mem_replicate hx⟩⟩
  · simp [linkedAppend, List.getElem?_append_left hi]
  · refine ⟨_, if_pos ⟨h1, h2⟩, by simp; omega, fun i hi => ?_⟩
    rw [List.getElem?_take, if_pos hi, List.getElem?_drop]
  · unfold linkedRange
    split
    · rename_i h
      simp; omega
    · rename_i h
      simp; omega

/-- C80 for the constructor from a count, as far as it holds: counts below 2^32. -/
theorem C80_count_partial (dflt : α) (n : Nat) (h : n < 2 ^ 32) :
    (linkedCount dflt n).length = n ∧ ∀ x ∈ linkedCount dflt n, x = dflt := by
  refine ⟨?_, fun x hx => List.eq_of_mem_replicate hx⟩
  simp only [linkedCount, List.length_replicate]
  exact Nat.mod_eq_of_lt h

/-- C80 is false for every larger count: the list is too short. -/
theorem C80_count_refuted (dflt : α) (n : Nat) (h : 2 ^ 32 ≤ n) : (linkedCount dflt n).length < n := by
  simp only [linkedCount, List.length_replicate]
  exact Nat.lt_of_lt_of_le (Nat.mod_lt _ (by decide)) h

example : linkedCount 'a' 3 = ['a', 'a', 'a'] ∧ linkedCount 'a' (2 ^ 32) = [] ∧ linkedRange [1, 2, 3, 4] 1 3 = .ok [2, 3] ∧
    linkedAppend [1] 2 = [1, 2] ∧ linkedIntegers 2 7 = [7, 7] := by decide +kernel

end Helper.ListC
