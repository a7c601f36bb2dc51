import Verif.Randomiser.Real
/-!
# Property C146: runs

The engine of these runs gives the words of a list, one after the other.
-/
namespace Helper.Randomiser.Real

/-- An engine that gives these words. -/
def nextOf : List Nat → Nat × List Nat
  | [] => (0, [])
  | g :: gs => (g, gs)

/-- C146 is false: a randomiser of `double` with bounds 1 and 2 can give 2, in any library. -/
theorem C146_max_refuted (clip fused : Bool) :
    get (real 53 clip fused nextOf) ⟨1, 2⟩ [4294965248, 4294967295] = (2, []) := by
  cases clip <;> cases fused <;> decide +kernel

/-- C146 is false in the same way for `float`. -/
theorem C146_float_refuted (clip fused : Bool) :
    get (real 24 clip fused nextOf) ⟨1, 2⟩ [4294967040] = (2, []) := by
  cases clip <;> cases fused <;> decide +kernel

/-- C146 is false for intervals of neighbours, for most words. -/
theorem C146_neighbours_refuted (clip fused : Bool) :
    get (real 53 clip fused nextOf) ⟨1, 1 + 1 / 2 ^ 52⟩ [0, 2147483649] = ((1 + 1 / 2 ^ 52 : Rat), []) := by
  cases clip <;> cases fused <;> decide +kernel

/-- C146 is false also for an interval that contains zero, if its width is not representable. -/
theorem C146_zero_refuted (clip : Bool) :
    get (real 53 clip false nextOf) ⟨-3 / 2 ^ 53, 1 + 2 / 2 ^ 52⟩ [4294965248, 4294967295] = ((1 + 2 / 2 ^ 52 : Rat), []) := by
  cases clip <;> decide +kernel

/-- C146 is false in libraries that do not avoid 1: the upper bound can be reached from zero, and even be exceeded. -/
theorem C146_above_refuted (fused : Bool) :
    canonical 53 false [4294967295, 4294967295] = 1 ∧ canonical 24 false [4294967295] = 1 ∧
    get (real 53 false fused nextOf) ⟨0, 1⟩ [4294967295, 4294967295] = (1, []) ∧
    get (real 53 false fused nextOf) ⟨-1, 3 / 2 ^ 54⟩ [4294967295, 4294967295] = ((4 / 2 ^ 54 : Rat), []) := by
  cases fused <;> decide +kernel

/-! ## Examples -/

example : calls 24 = 1 ∧ calls 32 = 1 ∧ calls 33 = 2 ∧ calls 53 = 2 ∧ calls 64 = 2 ∧ calls 113 = 4 := by decide

example : get (real 53 true false nextOf) ⟨-1, 1⟩ [4096, 0x80000000, 7] = ((1 / 2 ^ 51 : Rat), [7]) := by decide +kernel

example : get (real 53 true false nextOf) ⟨0, 1⟩ [4294967295, 4294967295] = ((1 - 1 / 2 ^ 53 : Rat), []) := by decide +kernel

example : (draws (real 24 true false nextOf) (fun _ => 0) [(0, ⟨0, 8⟩), (0, ⟨-1, 1⟩)] (fun _ => [0x40000000, 0xC0000000, 9])).1 = [2, 1 / 2] := by
  decide +kernel

end Helper.Randomiser.Real
