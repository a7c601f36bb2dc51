import Verif.TestC.WithinRange
/-!
# Property C149 for all values of a floating-point type: runs
-/
namespace Helper.TestC.Within
open Helper.Double

/-- C149 is false for numbers that are far apart: their distance is infinite and fails for the largest number as tolerance, as it should, but numbers whose
distance is beyond the largest number by less than half of its last place pass for it. -/
theorem C149_largest_refuted :
    dist (largest binary64) (-(2 ^ 960)) > largest binary64 ∧
    passesV binary64 (.fin false (largest binary64)) (.fin true (2 ^ 960)) (.fin false (largest binary64)) = true ∧
    passesV binary64 (.fin false (largest binary64)) (.fin true (largest binary64)) (.fin false (largest binary64)) = false := by
  decide +kernel

/-- The smallest numbers, and infinities. -/
example : passesV binary64 (.fin false (2 ^ (-1074 : Int))) (.fin false 0) (.fin false 0) = false ∧
    passesV binary64 (.fin false (2 ^ (-1074 : Int))) (.fin false 0) (.fin false (2 ^ (-1074 : Int))) = true ∧
    passesV binary64 (.fin true 0) (.fin false 0) (.fin true 0) = true ∧
    passesV binary64 (.fin false 1) (.fin true 1) (.fin false 2) = true ∧
    passesV binary64 (.fin true 1) (.fin false 1) (.fin false 1) = false ∧
    passesV binary64 (.inf false) (.inf true) (.inf false) = true ∧
    passesV binary64 (.inf false) (.fin true 1) (.fin false 1) = false ∧
    passesV binary64 (.fin false 1) (.fin false 1) (.inf true) = false ∧
    passesV binary64 (.inf false) (.inf false) (.inf false) = false := by decide +kernel

example : Close (.inf true) (.inf true) (.fin false 0) := .same (by decide +kernel)

end Helper.TestC.Within
