import Verif.TestC.Within
/-!
# Property C149: runs
-/
namespace Helper.TestC.Within
open Helper.Double

/-- C149 is false also with the functions of `std`: 1 and `-2^-60` are more than 1 apart, and pass for the tolerance 1. -/
theorem C149_refuted : dist 1 (-(1 / 2 ^ 60)) > 1 ∧ passes 53 .std 1 (-(1 / 2 ^ 60)) 1 = .ok true := by
  decide +kernel

/-- `HELPER_TEST_WITHIN(0.75, 0.0, 0.125)` fails with the functions of `std` and passes without. -/
theorem C149_abs_refuted : passes 53 .std (3 / 4) 0 (1 / 8) = .ok false ∧ passes 53 .c (3 / 4) 0 (1 / 8) = .ok true := by
  decide +kernel

/-- The two functions, on each side of the tolerance. -/
example : passes 53 .std (5 / 4) 1 (1 / 4) = .ok true ∧ passes 53 .std (5 / 4) 1 (1 / 8) = .ok false ∧
    passes 53 .std 1 (5 / 4) (1 / 8) = .ok false ∧ passes 53 .c 3 1 1 = .ok false ∧ passes 53 .c 1 3 1 = .ok false ∧
    passes 53 .c (5 / 2) 1 1 = .ok true ∧ passes 53 .c 1 (7 / 2) 1 = .ok false := by decide +kernel

/-- Distances that are not an `int`. -/
example : passes 53 .c (2 ^ 31) 0 (2 ^ 40) = .ub .overflow ∧ passes 53 .c 0 (2 ^ 31) (2 ^ 40) = .ub .overflow ∧
    passes 53 .c 0 (2 ^ 31 - 1) (2 ^ 40) = .ok true ∧ passes 53 .std 0 (2 ^ 31) (2 ^ 40) = .ok true := by decide +kernel

/-- Integers. -/
example : passesInt 5 7 2 = .ok true ∧ passesInt 5 7 1 = .ok false ∧ passesInt 7 5 1 = .ok false ∧ passesInt (2 ^ 31 - 1) (-1) 0 = .ub .overflow ∧
    passesInt (-2 ^ 31) 0 0 = .ub .overflow ∧ passesInt (-2 ^ 31) (-1) 0 = .ok false := by decide +kernel

/-- Unsigned numbers: the difference of 5 and 7 wraps, and is turned into -2. -/
example : passesUnsigned 32 5 7 2 = .ok true ∧ passesUnsigned 32 5 7 1 = .ok false ∧ passesUnsigned 64 5 7 2 = .ok true ∧
    passesUnsigned 64 (2 ^ 31) 0 (2 ^ 32) = .ub .overflow ∧ passesUnsigned 64 (2 ^ 32) 0 0 = .ok true := by decide +kernel

end Helper.TestC.Within
