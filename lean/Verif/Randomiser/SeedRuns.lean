import Verif.Randomiser.Seed
/-!
# Property C148: runs

The words of the engine with the default seed of the standard, 5489, are known.
-/
namespace Helper.Randomiser.Seed

theorem output_early (seed : Word) {n : Nat} (h : n < 227) :
    output seed n = temper (init seed (n + 397) ^^^ mat (join (init seed n) (init seed (n + 1)))) := by
  rw [output, state_next, state_init seed (by omega), state_init seed (by omega), state_init seed (by omega)]

/-- C148: the model of the engine gives the known first words for the default seed. -/
theorem C148_default : output 5489#32 0 = 3499211612#32 ∧ output 5489#32 1 = 581869302#32 ∧ output 5489#32 2 = 3890346734#32 := by
  rw [output_early _ (by decide), output_early _ (by decide), output_early _ (by decide)]
  decide +kernel

example : seedOf 64 0#32 (-1) 2 = 1#32 ∧ seedOf 32 5#32 4294967295 1 = 5#32 ∧ seedOf 64 5#32 4294967295 2 = 4#32 := by decide +kernel

example : output 1#32 0 ≠ output 2#32 0 := by
  rw [output_early _ (by decide), output_early _ (by decide)]
  decide +kernel

end Helper.Randomiser.Seed
