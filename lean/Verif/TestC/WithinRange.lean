import Verif.TestC.Within
import Verif.Double.Range
import Verif.TestC.Model
set_option linter.unusedSectionVars false
/-!
# Property C149 for all values of a floating-point type (test.hpp:306-321)

`Within` leaves out the bounds of the exponent, infinities and NaN. Here `abs` is the function of namespace `std`, and the operations are those of
IEEE 754 with rounding to nearest: small differences are multiples of the smallest number, large ones become infinite.
-/
namespace Helper.TestC.Within
open Helper.Double

/-- The number of a sign and a size. -/
def signed (neg : Bool) (x : Rat) : Rat := if neg then -x else x

/-- Line 309: `expression-expected`. The sign of zero does not matter to `abs`, nor that of a NaN. -/
def sub (F : Format) : Val → Val → Val
  | .nan n, _ => .nan n
  | _, .nan n => .nan n
  | .inf a, .inf b => if a = b then .nan false else .inf a
  | .inf a, .fin _ _ => .inf a
  | .fin _ _, .inf b => .inf (!b)
  | .fin a x, .fin b y =>
    let d := signed a x - signed b y
    if (2 : Rat) ^ F.hi ≤ near F (size d) then .inf (decide (d < 0)) else .fin (decide (d < 0)) (near F (size d))

/-- Line 309: `std::abs`. -/
def absV : Val → Val
  | .nan _ => .nan false
  | .inf _ => .inf false
  | .fin _ x => .fin false x

/-- Line 310: `<=`. -/
def leV : Val → Val → Bool
  | .nan _, _ => false
  | _, .nan _ => false
  | .inf a, .inf b => a || !b
  | .inf a, .fin _ _ => a
  | .fin _ _, .inf b => !b
  | .fin a x, .fin b y => decide (signed a x ≤ signed b y)

/-- Lines 309-310: whether the check passes. -/
def passesV (F : Format) (e x tol : Val) : Bool := leV (absV (sub F e x)) tol

/-! ## Specification -/

/-- The distance is at most the tolerance, in the extended real numbers; an infinity has distance 0 from itself. -/
inductive Close : Val → Val → Val → Prop
  | finite {a b c : Bool} {e x t : Rat} (h : dist (signed a e) (signed b x) ≤ signed c t) : Close (.fin a e) (.fin b x) (.fin c t)
  | any {e x : Val} (he : ∀ n, e ≠ .nan n) (hx : ∀ n, x ≠ .nan n) : Close e x (.inf false)
  | same {a c : Bool} {t : Rat} (h : 0 ≤ signed c t) : Close (.inf a) (.inf a) (.fin c t)

/-! ## Proofs -/

variable {F : Format}

theorem size_dist (x y : Rat) : size (x - y) = dist x y := by
  unfold size dist
  split <;> split <;> grind

theorem signed_le {c : Bool} {t : Rat} (ht : Valid F (.fin c t)) : signed c t ≤ largest F := by
  have h0 := grid_nonneg ht.1
  have h1 := ht.2
  unfold signed
  split <;> grind

theorem largest_lt : largest F < 2 ^ F.hi := by
  rw [largest_eq]
  have := two_pos (F.hi - F.p)
  grind

/-- On numbers, the check passes iff the distance, rounded, is at most the tolerance. -/
theorem C149_finite {a b c : Bool} {e x t : Rat} (ht : Valid F (.fin c t)) :
    passesV F (.fin a e) (.fin b x) (.fin c t) = true ↔ near F (dist (signed a e) (signed b x)) ≤ signed c t := by
  rw [← size_dist]
  simp only [passesV, sub]
  by_cases h : (2 : Rat) ^ F.hi ≤ near F (size (signed a e - signed b x))
  · rw [if_pos h]
    have h1 := signed_le ht
    have h2 := @largest_lt F
    simp only [absV, leV, Bool.false_eq_true, false_iff]
    grind
  · rw [if_neg h]
    simp only [absV, leV, decide_eq_true_eq]
    rfl

/-- The size of a number of the type, or its negative. -/
theorem near_le (hp : 0 < F.p) {c : Bool} {t d : Rat} (ht : Valid F (.fin c t)) (h0 : 0 ≤ d) (h : d ≤ signed c t) : near F d ≤ signed c t := by
  cases c with
  | false =>
    have := near_mono hp h0 h
    simp only [signed, Bool.false_eq_true, if_false] at this ⊢
    rwa [near_grid hp ht.1] at this
  | true =>
    have := grid_nonneg ht.1
    have h' : d ≤ -t := h
    have hd : d = 0 := by grind
    rw [hd, near_zero]
    show (0 : Rat) ≤ -t
    grind

/-- C149 for values within the tolerance, except an infinity and itself. -/
theorem C149_values_partial (hp : 0 < F.p) {e x tol : Val} (ht : Valid F tol) (h : Close e x tol) (hi : ∀ a, ¬ (e = .inf a ∧ x = .inf a)) :
    passesV F e x tol = true := by
  cases h with
  | finite h => exact (C149_finite ht).2 (near_le hp ht (dist_nonneg _ _) h)
  | any he hx =>
    cases e with
    | nan n => exact absurd rfl (he n)
    | inf a =>
      cases x with
      | nan n => exact absurd rfl (hx n)
      | inf b =>
        have : a ≠ b := fun h => hi a ⟨rfl, by rw [h]⟩
        simp [passesV, sub, this, absV, leV]
      | fin b y => simp [passesV, sub, absV, leV]
    | fin a x' =>
      cases x with
      | nan n => exact absurd rfl (hx n)
      | inf b => simp [passesV, sub, absV, leV]
      | fin b y =>
        simp only [passesV, sub]
        split <;> simp [absV, leV]
  | same h => exact absurd ⟨rfl, rfl⟩ (hi _)

/-- C149 is false for an infinity and itself: the check fails for every tolerance, since the difference is a NaN. -/
theorem C149_infinity_refuted (a : Bool) (tol : Val) : passesV F (.inf a) (.inf a) tol = false := by
  cases a <;> cases tol <;> rfl

/-- No check with a NaN passes. -/
theorem C149_nan {e x tol : Val} (h : passesV F e x tol = true) : ∀ n, e ≠ .nan n ∧ x ≠ .nan n ∧ tol ≠ .nan n := by
  intro n
  refine ⟨?_, ?_, ?_⟩ <;> rintro rfl
  · cases tol <;> simp [passesV, sub, absV, leV] at h
  · cases e <;> cases tol <;> simp [passesV, sub, absV, leV] at h
  · simp only [passesV] at h
    cases h' : absV (sub F e x) <;> rw [h'] at h <;> simp [leV] at h

/-- With a tolerance that is a number, only numbers pass. -/
theorem C149_numbers {e x : Val} {c : Bool} {t : Rat} (h : passesV F e x (.fin c t) = true) :
    (∃ a y, e = .fin a y) ∧ ∃ b z, x = .fin b z := by
  cases e <;> cases x <;> simp_all [passesV, sub, absV, leV]
  rename_i a b
  cases a <;> cases b <;> simp at h

/-! ## Exact differences -/

/-- Multiples of the smallest number that have few bits are numbers of the type. -/
theorem grid_dist {a b : Bool} {e x : Rat} (he : Grid F e) (hx : Grid F x) :
    ∃ K : Nat, dist (signed a e) (signed b x) = (K : Rat) * 2 ^ F.lo := by
  obtain ⟨k, rfl⟩ := grid_multiple he
  obtain ⟨l, rfl⟩ := grid_multiple hx
  have key : ∀ m n : Int, ∃ K : Nat, dist ((m : Rat) * 2 ^ F.lo) ((n : Rat) * 2 ^ F.lo) = (K : Rat) * 2 ^ F.lo := by
    intro m n
    refine ⟨(m - n).natAbs, ?_⟩
    rw [dist_mul (two_pos _)]
    congr 1
    have hc : (((m - n).natAbs : Nat) : Rat) = (((m - n).natAbs : Int) : Rat) := rfl
    rw [hc]
    unfold dist
    split
    · rename_i h
      have : m ≤ n := Rat.intCast_le_intCast.1 h
      rw [show ((m - n).natAbs : Int) = n - m by omega, Rat.intCast_sub]
    · rename_i h
      have : ¬ m ≤ n := fun h' => h (Rat.intCast_le_intCast.2 h')
      rw [show ((m - n).natAbs : Int) = m - n by omega, Rat.intCast_sub]
  have cast : ∀ (s : Bool) (n : Nat), signed s ((n : Rat) * 2 ^ F.lo) = (((if s then -(n : Int) else n) : Int) : Rat) * 2 ^ F.lo := by
    intro s n
    cases s
    · rfl
    · show -((n : Rat) * 2 ^ F.lo) = ((-(n : Int) : Int) : Rat) * 2 ^ F.lo
      rw [Rat.intCast_neg]
      have : ((n : Int) : Rat) = (n : Rat) := rfl
      rw [this]; grind
  rw [cast, cast]
  exact key _ _

/-- Differences are not lost to underflow: near the smallest numbers the check is exact. -/
theorem C149_small (hp : 0 < F.p) {a b c : Bool} {e x t : Rat} (he : Grid F e) (hx : Grid F x) (ht : Valid F (.fin c t))
    (h : dist (signed a e) (signed b x) < 2 ^ (F.lo + F.p)) :
    passesV F (.fin a e) (.fin b x) (.fin c t) = true ↔ dist (signed a e) (signed b x) ≤ signed c t := by
  obtain ⟨K, hK⟩ := grid_dist (a := a) (b := b) he hx
  have hg : Grid F (dist (signed a e) (signed b x)) := by
    refine ⟨K, F.lo, ?_, Int.le_refl _, hK⟩
    rw [hK, show F.lo + (F.p : Int) = F.p + F.lo by omega, two_add, two_nat] at h
    have := lt_of_mul (two_pos F.lo) h
    exact_mod_cast this
  rw [C149_finite ht, near_grid hp hg]

theorem near_eq_zero (hp : 0 < F.p) {K : Nat} (h : near F ((K : Rat) * 2 ^ F.lo) = 0) : K = 0 := by
  apply Classical.byContradiction
  intro hK
  have h1 : Grid F (2 ^ F.lo) := by
    refine ⟨1, F.lo, Nat.one_lt_two_pow (by omega), Int.le_refl _, ?_⟩
    have : ((1 : Nat) : Rat) = 1 := rfl
    rw [this]; grind
  have h2 : (1 : Rat) ≤ (K : Rat) := by
    have : 1 ≤ K := by omega
    exact_mod_cast this
  have h3 := Rat.mul_le_mul_of_nonneg_right h2 (Rat.le_of_lt (two_pos F.lo))
  have h4 := near_mono hp (Rat.le_of_lt (two_pos F.lo)) (show (2 : Rat) ^ F.lo ≤ (K : Rat) * 2 ^ F.lo by grind)
  rw [near_grid hp h1, h] at h4
  have := two_pos F.lo
  grind

/-- With the tolerance 0, the check passes iff the numbers are equal. -/
theorem C149_zero (hp : 0 < F.p) {a b c : Bool} {e x : Rat} (he : Grid F e) (hx : Grid F x) (hv : Valid F (.fin c 0)) :
    passesV F (.fin a e) (.fin b x) (.fin c 0) = true ↔ signed a e = signed b x := by
  obtain ⟨K, hK⟩ := grid_dist (a := a) (b := b) he hx
  have h0 : signed c 0 = 0 := by cases c <;> simp [signed]
  rw [C149_finite hv, h0]
  constructor
  · intro h
    have hn := near_nonneg (F := F) (dist_nonneg (signed a e) (signed b x))
    have hz : near F (dist (signed a e) (signed b x)) = 0 := by grind
    rw [hK] at hz
    have := near_eq_zero hp hz
    rw [this] at hK
    have hk : dist (signed a e) (signed b x) = 0 := by rw [hK]; grind
    unfold dist at hk
    split at hk <;> grind
  · intro h
    have : dist (signed a e) (signed b x) = 0 := by rw [h]; unfold dist; split <;> grind
    rw [this, near_zero]
    exact Rat.le_refl

/-! ## The macro -/

section macros
open Helper.Macro Helper.TestC

/-- `HELPER_TEST_WITHIN` on constants counts a failure iff the check does not pass. -/
theorem C149_macro {σ : Type} (rtl : Bool) (e x tol : Val) (w : W σ) (hw : w.fails + 1 < 2 ^ 31) :
    exec rtl (.within (fun a b => .pure (absV (sub F a b))) (fun a b => .pure (leV a b)) (.pure e) (.pure x) (.pure tol)) w =
      (.val (), if passesV F e x tol = true then w else { w with fails := w.fails + 1 }) := by
  cases h : passesV F e x tol <;> unfold passesV at h <;> cases rtl <;>
    simp [exec, within, Exp.both, M.lift, M.bind, Exp.pure, Exp.bind, incr, show_, M.pure, hw, h]

end macros

end Helper.TestC.Within
