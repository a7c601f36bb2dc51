import Verif.Randomiser.Ints
/-!
# Property C147: runs and the link to C67
-/
namespace Helper.Randomiser.Ints

/-- The distribution as one of those of `C67_int`, whose engine is a list of words; if these are used up, it gives the lower bound. -/
def dist (signed : Bool) (w : Nat) (alg : Alg) : Dist Int (List Nat) := fun a b ws =>
  match getInt signed w alg a b ws with
  | some r => r
  | none => (a, [])

/-- C147: so the assumption of `C67_int` holds for bounds of the type. -/
theorem C147_contract {signed : Bool} {w : Nat} (h0 : 0 < w) (h64 : w ≤ 64) (alg : Alg) {a b : Int} (ha : InType signed w a) (hb : InType signed w b)
    (hab : a ≤ b) {ws : List Nat} (hw : ∀ g ∈ ws, g < W) : a ≤ (dist signed w alg a b ws).1 ∧ (dist signed w alg a b ws).1 ≤ b := by
  unfold dist
  cases h : getInt signed w alg a b ws with
  | none => exact ⟨Int.le_refl a, hab⟩
  | some r =>
    obtain ⟨v, ws'⟩ := r
    have := C147_between h0 h64 alg ha hb hab hw h
    exact ⟨this.1, this.2.1⟩

/-- A die. -/
example : getInt true 32 .product 1 6 [0, 4294967295, 715827883] = some (6, [715827883]) ∧
    getInt true 32 .division 1 6 [4294967295, 4294967289, 7] = some (6, [7]) := by decide +kernel

/-- All the numbers of `int` and of `long`. -/
example : getInt true 32 .product (-2147483648) 2147483647 [5, 6] = some (-2147483643, [6]) ∧
    getInt true 64 .product (-9223372036854775808) 9223372036854775807 [5, 6, 7] = some (-9223372036854775808 + 5 * 4294967296 + 6, [7]) ∧
    getInt false 64 .division 0 4294967296 [4294967293, 9, 5, 6] = some (6, []) := by decide +kernel

example : share .product 6 = 715827882 ∧ share .division 6 = 715827882 ∧ share .product 4 = 1073741824 ∧ share .division 4 = 1073741823 := by decide

end Helper.Randomiser.Ints
