import Verif.Arith.Compare
/-!
# Property C150: runs on Linux
-/
namespace Helper.Arith
open Helper.Macro Helper.TestC

/-- `HELPER_TEST_LESS(-1, v.size())` fails and `HELPER_TEST_EQUAL(-1, n)` passes for the largest `size_t`; with `int` and `long`, or `unsigned` and `long`, all
is right. -/
theorem C150_size_refuted (rtl : Bool) :
    exec rtl (.less (ltE lp64) (.pure (.int, -1)) (.pure (.ulong, 3))) (⟨(), 0, 0⟩ : W Unit) = (.val (), ⟨(), 1, 0⟩) ∧
    exec rtl (.equal (eqE lp64) (.pure (.int, -1)) (.pure (.ulong, 2 ^ 64 - 1))) (⟨(), 0, 0⟩ : W Unit) = (.val (), ⟨(), 0, 0⟩) := by
  have h1 : lp64.less (.int .int) (.int .ulong) ((-1 : Int) : Rat) ((3 : Int) : Rat) = some false := by decide +kernel
  have h2 : lp64.equal (.int .int) (.int .ulong) ((-1 : Int) : Rat) ((2 ^ 64 - 1 : Int) : Rat) = some true := by decide +kernel
  have o1 : Ok lp64 (.int, -1) := by unfold Ok; decide +kernel
  have o2 : Ok lp64 (.ulong, 3) := by unfold Ok; decide +kernel
  have o3 : Ok lp64 (.ulong, 2 ^ 64 - 1) := by unfold Ok; decide +kernel
  have a := (C150_macros lp64 rtl (.int, -1) (.ulong, 3) o1 o2 (⟨(), 0, 0⟩ : W Unit) (by decide)).2.2.2.1
  have b := (C150_macros lp64 rtl (.int, -1) (.ulong, 2 ^ 64 - 1) o1 o3 (⟨(), 0, 0⟩ : W Unit) (by decide)).1
  simp only at a b
  rw [h1] at a
  rw [h2] at b
  exact ⟨by simpa using a, by simpa using b⟩

/-- Comparisons of several types. -/
example : lp64.less (.int .int) (.int .long) (-1) 3 = some true ∧ lp64.less (.int .long) (.int .uint) (-1) 3 = some true ∧
    lp64.less (.int .schar) (.int .ushort) (-1) 3 = some true ∧ lp64.equal (.int .schar) (.int .uchar) (-1) 255 = some false ∧
    lp64.equal (.int .int) (.int .uint) (-1) 4294967295 = some true ∧ lp64.equal (.int .bool) (.int .int) 1 2 = some false ∧
    lp64.less (.int .uint) (.int .int) 4294967294 (-1) = some true := by decide +kernel

example : lp64.signed (com lp64 (.long, 0) (.uint, 0)) = true ∧ lp64.signed (com lp64 (.int, 0) (.uint, 0)) = false ∧
    lp64.signed (com lp64 (.ushort, 0) (.uchar, 0)) = true := by decide

end Helper.Arith
