import Verif.Basic
import Verif.Double.Props
set_option linter.unusedSectionVars false
/-!
# Property C149: HELPER_TEST_WITHIN on the numbers of C++ (test.hpp:306-321)

`C74` is about the text of the arguments; here the arguments are numbers, and line 309 computes `abs(expression-expected)` on them. The name `abs` is not
qualified, and test.hpp includes `<cstdlib>` (line 35) but neither `<cmath>` nor a using-declaration: which function is called depends on the program.
Floating-point numbers have `p` bits (53 for `double`, 24 for `float`) and are rounded to nearest after every operation, as in `Double.Model`; the bounds
of the exponent, infinities and NaN are not modelled.
-/
namespace Helper.TestC.Within
open Helper.Double

/-- The function that `abs` in line 309 names. -/
inductive Abs where
  /-- the overloads of namespace `std`: a program with `using namespace std`, or a library whose `<stdlib.h>` declares them globally -/
  | std
  /-- only `int abs(int)` of C: programs without such a directive, where the library declares the overloads in `std` alone -/
  | c
deriving DecidableEq

/-- Conversion of a real number to an integer drops the fraction. -/
def trunc (d : Rat) : Int := if 0 ≤ d then d.floor else -(-d).floor

/-- The conversion of a floating-point argument to `int`; undefined if the result is not an `int` ([conv.fpint]), which is
recorded as an overflow. -/
def toInt (d : Rat) : Res Int := if -2 ^ 31 ≤ trunc d ∧ trunc d < 2 ^ 31 then .ok (trunc d) else .ub .overflow

/-- `int abs(int)`; undefined for the least `int`. -/
def cabs (n : Int) : Res Int := if n = -2 ^ 31 then .ub .overflow else .ok (if n < 0 then -n else n)

/-- Line 309 on floating-point numbers: `auto error=abs(expression-expected)`. The error of the C function is an `int`, which line 310 converts back. -/
def error (p : Nat) : Abs → Rat → Rat → Res Rat
  | .std, e, x => .ok (let d := round p (e - x); if d < 0 then -d else d)
  | .c, e, x => (toInt (round p (e - x))).bind fun n => (cabs n).bind fun m => .ok (round p m)

/-- Line 310: whether the check passes. -/
def passes (p : Nat) (a : Abs) (e x tol : Rat) : Res Bool := (error p a e x).bind fun d => .ok (decide (d ≤ tol))

/-- The conversion of an integer to `int` keeps its lowest 32 bits ([conv.integral]). -/
def toInt32 (n : Int) : Int := (n + 2 ^ 31) % 2 ^ 32 - 2 ^ 31

/-- Lines 309-310 on `int`. -/
def passesInt (e x tol : Int) : Res Bool :=
  if -2 ^ 31 ≤ e - x ∧ e - x < 2 ^ 31 then (cabs (e - x)).bind fun d => .ok (decide (d ≤ tol)) else .ub .overflow

/-- Lines 309-310 on an unsigned type of `w` bits, with the C function; those of `std` do not accept unsigned numbers of 32 bits or more ([c.math.abs]). -/
def passesUnsigned (w e x tol : Nat) : Res Bool :=
  (cabs (toInt32 (((e : Int) - x) % 2 ^ w))).bind fun d => .ok (decide (d ≤ (tol : Int)))

/-! ## Floating-point numbers -/

section real
variable {p : Nat} (hp : 0 < p)
include hp

/-- The distance, rounded. -/
theorem round_dist (e x : Rat) : (let d := round p (e - x); if d < 0 then -d else d) = round p (dist e x) := by
  have hz : round p 0 = 0 := C102_exact hp (float_zero p)
  simp only
  by_cases h : e ≤ x
  · have h1 : round p (x - e) = -round p (e - x) := by rw [← round_neg]; congr 1; grind
    have h2 : 0 ≤ round p (x - e) := by rw [← hz]; exact C102_mono hp (by grind)
    rw [dist, if_pos h]
    split <;> grind
  · have h2 : 0 ≤ round p (e - x) := by rw [← hz]; exact C102_mono hp (by grind)
    rw [dist, if_neg h, if_neg (by grind)]

/-- With the functions of `std` the check passes iff the distance, rounded, is at most the tolerance. -/
theorem C149_rounded (e x tol : Rat) : passes p .std e x tol = .ok (decide (round p (dist e x) ≤ tol)) := by
  rw [passes, error, round_dist hp]; rfl

/-- Numbers within the tolerance pass. -/
theorem C149_close {e x tol : Rat} (ht : Float p tol) (h : dist e x ≤ tol) : passes p .std e x tol = .ok true := by
  rw [C149_rounded hp]
  have := C102_mono hp h
  rw [C102_exact hp ht] at this
  simp [this]

/-- Numbers that pass are beyond the tolerance by a part of `2^p` of their distance at most. -/
theorem C149_beyond {e x tol : Rat} (h : passes p .std e x tol = .ok true) :
    dist e x * (((2 ^ p : Nat) : Rat) - 1) ≤ tol * ((2 ^ p : Nat) : Rat) := by
  rw [C149_rounded hp] at h
  simp only [Res.ok.injEq, decide_eq_true_eq] at h
  have h1 := C102_error hp (dist e x)
  have h0 := dist_nonneg e x
  have hd : dist e x - round p (dist e x) ≤ dist (dist e x) (round p (dist e x)) := by
    rw [dist.eq_def (dist e x) (round p (dist e x))]; split <;> grind
  have h2 : dist (dist e x) 0 = dist e x := by
    rw [dist.eq_def (dist e x) 0]; split <;> grind
  rw [h2] at h1
  have hN : (0 : Rat) ≤ ((2 ^ p : Nat) : Rat) := by exact_mod_cast Nat.zero_le _
  have h3 := Rat.mul_le_mul_of_nonneg_right hd hN
  have h4 := Rat.mul_le_mul_of_nonneg_right h hN
  clear hd h h2 hp
  generalize ((2 ^ p : Nat) : Rat) = N at *
  generalize dist e x = d at *
  grind

/-- The check is exact if the difference is representable. -/
theorem C149_exact_partial {e x : Rat} (tol : Rat) (h : Float p (e - x)) : passes p .std e x tol = .ok (decide (dist e x ≤ tol)) := by
  have : Float p (dist e x) := by
    unfold dist
    split
    · have := float_neg h
      rwa [show -(e - x) = x - e by grind] at this
    · exact h
  rw [C149_rounded hp, C102_exact hp this]

omit hp in
/-- A number of the grid of `y` that is not larger than `y` is representable. -/
theorem float_grid {k n : Int} {j : Int} (hk : k < 2 ^ p) {z : Rat} (hz : z = (n : Rat) * 2 ^ j)
    (h1 : z ≤ (k : Rat) * 2 ^ j) (h2 : -((k : Rat) * 2 ^ j) ≤ z) : Float p z := by
  have hj := two_pos j
  have a : (n : Rat) ≤ (k : Rat) := le_of_mul hj (by rw [← hz]; exact h1)
  have b : ((-k : Int) : Rat) ≤ (n : Rat) := le_of_mul hj (by rw [← hz, Rat.intCast_neg]; grind)
  have a' : n ≤ k := Rat.intCast_le_intCast.1 a
  have b' : -k ≤ n := Rat.intCast_le_intCast.1 b
  exact ⟨n, j, by omega, by omega, hz⟩

omit hp in
/-- Numbers within a factor of two of each other have a representable difference. -/
theorem float_sub {e x : Rat} (he : Float p e) (hx : Float p x) (h0 : 0 ≤ x) (h1 : x ≤ 2 * e) (h2 : e ≤ 2 * x) : Float p (e - x) := by
  obtain ⟨k, i, a1, a2, rfl⟩ := he
  obtain ⟨l, j, b1, b2, rfl⟩ := hx
  rcases Int.le_total i j with h | h
  · obtain ⟨n, rfl⟩ : ∃ n : Nat, j = n + i := ⟨(j - i).toNat, by omega⟩
    refine float_grid (k := k) (n := k - l * 2 ^ n) (j := i) a2 ?_ (by grind) (by grind)
    have : ((2 ^ n : Nat) : Rat) = ((2 ^ n : Int) : Rat) := by norm_cast
    rw [two_add, two_nat, Rat.intCast_sub, Rat.intCast_mul, this]
    generalize ((2 ^ n : Int) : Rat) = N
    grind
  · obtain ⟨n, rfl⟩ : ∃ n : Nat, i = n + j := ⟨(i - j).toNat, by omega⟩
    refine float_grid (k := l) (n := k * 2 ^ n - l) (j := j) b2 ?_ (by grind) (by grind)
    have : ((2 ^ n : Nat) : Rat) = ((2 ^ n : Int) : Rat) := by norm_cast
    rw [two_add, two_nat, Rat.intCast_sub, Rat.intCast_mul, this]
    generalize ((2 ^ n : Int) : Rat) = N
    grind

/-- The check is exact for positive numbers within a factor of two of each other, as nearly equal ones are. -/
theorem C149_near_partial {e x : Rat} (tol : Rat) (he : Float p e) (hx : Float p x) (h0 : 0 ≤ x) (h1 : x ≤ 2 * e) (h2 : e ≤ 2 * x) :
    passes p .std e x tol = .ok (decide (dist e x ≤ tol)) :=
  C149_exact_partial hp tol (float_sub he hx h0 h1 h2)

end real

/-! ## The function of C -/

/-- The size of a truncated number is the truncated size. -/
theorem trunc_abs (d : Rat) : (if trunc d < 0 then -trunc d else trunc d) = (dist d 0).floor := by
  by_cases h : 0 ≤ d
  · have h1 : 0 ≤ d.floor := Rat.le_floor_iff.2 h
    have h2 : dist d 0 = d := by unfold dist; split <;> grind
    rw [trunc, if_pos h, h2, if_neg (by omega)]
  · have h1 : 0 ≤ (-d).floor := Rat.le_floor_iff.2 (by show (0 : Rat) ≤ -d; grind)
    have h2 : dist d 0 = -d := by unfold dist; split <;> grind
    rw [trunc, if_neg h, h2]
    split <;> omega

theorem floor_lt {d : Rat} {n : Int} : d.floor < n ↔ d < (n : Rat) := by
  have := @Rat.le_floor_iff n d
  constructor
  · intro h; apply Rat.not_le.1; intro h'; have := this.2 h'; omega
  · intro h; apply Int.not_le.1; intro h'; have := this.1 h'; grind

/-- What the conversion and the C function make of a number. -/
theorem toInt_cabs (d : Rat) : (toInt d).bind cabs = if dist d 0 < 2 ^ 31 then .ok (dist d 0).floor else .ub .overflow := by
  have ha := trunc_abs d
  have hf := @floor_lt (dist d 0) (2 ^ 31)
  have hc : (((2 : Int) ^ 31 : Int) : Rat) = 2 ^ 31 := by decide +kernel
  rw [hc] at hf
  by_cases h : dist d 0 < 2 ^ 31
  · have hl := hf.2 h
    rw [if_pos h, toInt]
    have : -2 ^ 31 < trunc d ∧ trunc d < 2 ^ 31 := by split at ha <;> omega
    rw [if_pos ⟨by omega, this.2⟩]
    show cabs (trunc d) = _
    rw [cabs, if_neg (by omega), ha]
  · have hl : ¬ (dist d 0).floor < 2 ^ 31 := fun h' => h (hf.1 h')
    rw [if_neg h, toInt]
    split
    · rename_i h'
      show cabs (trunc d) = _
      rw [cabs, if_pos]
      split at ha <;> omega
    · rfl

theorem pow31 {p : Nat} (hp : 31 ≤ p) : (2 : Int) ^ 31 ≤ 2 ^ p := by
  obtain ⟨k, rfl⟩ : ∃ k, p = 31 + k := ⟨p - 31, by omega⟩
  have : (0 : Int) < 2 ^ k := Int.pow_pos (by decide)
  rw [Int.pow_add]
  omega

section c
variable {p : Nat} (hp : 31 ≤ p)
include hp

theorem dist_round (e x : Rat) : dist (round p (e - x)) 0 = round p (dist e x) := by
  have hp' : 0 < p := by omega
  rw [← round_dist hp']
  unfold dist
  simp only
  split <;> split <;> grind

/-- With the function of C, the check of `double`s passes iff the whole part of the distance is at most the tolerance; it is undefined from `2^31` on. -/
theorem C149_whole (e x tol : Rat) : passes p .c e x tol =
    if round p (dist e x) < 2 ^ 31 then .ok (decide (((round p (dist e x)).floor : Rat) ≤ tol)) else .ub .overflow := by
  have h := toInt_cabs (round p (e - x))
  rw [dist_round hp] at h
  have hp' : 0 < p := by omega
  have h0 : 0 ≤ round p (dist e x) := by
    have := C102_mono hp' (dist_nonneg e x)
    rwa [C102_exact hp' (float_zero p)] at this
  have e1 : error p .c e x = ((toInt (round p (e - x))).bind cabs).bind fun m => .ok (round p m) := by
    rw [error]
    cases toInt (round p (e - x)) <;> rfl
  rw [passes, e1, h]
  split
  · rename_i hl
    have hf : (round p (dist e x)).floor < 2 ^ 31 := floor_lt.2 (by
      have hc : (((2 : Int) ^ 31 : Int) : Rat) = 2 ^ 31 := by decide +kernel
      rw [hc]; exact hl)
    have hg : 0 ≤ (round p (dist e x)).floor := Rat.le_floor_iff.2 h0
    have hpow : (2 : Int) ^ 31 ≤ 2 ^ p := pow31 hp
    show Res.ok (decide (round p _ ≤ tol)) = _
    rw [round_int hp' (by omega) (by omega)]
  · rfl

/-- Numbers within the tolerance pass also with the function of C, if their distance is an `int`. -/
theorem C149_whole_close {e x tol : Rat} (ht : Float p tol) (h : dist e x ≤ tol) (hd : dist e x ≤ 2 ^ 31 - 1) :
    passes p .c e x tol = .ok true := by
  have hp' : 0 < p := by omega
  have h1 := C102_mono hp' h
  rw [C102_exact hp' ht] at h1
  have h2 := C102_mono hp' hd
  have hpow : (2 : Int) ^ 31 ≤ 2 ^ p := pow31 hp
  have hc : (((2 : Int) ^ 31 - 1 : Int) : Rat) = 2 ^ 31 - 1 := by decide +kernel
  have h3 : round p ((2 : Rat) ^ 31 - 1) = 2 ^ 31 - 1 := by
    rw [← hc]; exact round_int hp' (by omega) (by omega)
  rw [h3] at h2
  rw [C149_whole hp, if_pos (by grind)]
  have : ((round p (dist e x)).floor : Rat) ≤ round p (dist e x) := Rat.floor_le _
  simp only [Res.ok.injEq, decide_eq_true_eq]
  grind

/-- C149 is false: without the functions of `std`, all numbers whose distance rounds to less than 1 pass for every tolerance, even 0. -/
theorem C149_fraction_refuted {e x tol : Rat} (h : round p (dist e x) < 1) (ht : 0 ≤ tol) : passes p .c e x tol = .ok true := by
  rw [C149_whole hp, if_pos (by grind)]
  have h1 : (round p (dist e x)).floor < 1 := floor_lt.2 h
  have h2 : ((round p (dist e x)).floor : Rat) ≤ ((0 : Int) : Rat) := Rat.intCast_le_intCast.2 (by omega)
  have h3 : ((0 : Int) : Rat) = 0 := rfl
  simp only [Res.ok.injEq, decide_eq_true_eq]
  grind

end c

/-! ## Integers -/

/-- On `int`, the check is exact iff the difference has a size that is an `int`, and undefined else. -/
theorem C149_int_partial (e x tol : Int) : passesInt e x tol =
    if (e - x).natAbs < 2 ^ 31 then .ok (decide (((e - x).natAbs : Int) ≤ tol)) else .ub .overflow := by
  unfold passesInt cabs
  by_cases h : (e - x).natAbs < 2 ^ 31
  · rw [if_pos h, if_pos (by omega), if_neg (by omega)]
    show Res.ok _ = _
    congr 2
    apply propext
    split <;> omega
  · rw [if_neg h]
    split
    · rw [if_pos (by omega)]; rfl
    · rfl

theorem toInt32_mod {w : Nat} (hw : 32 ≤ w) (n : Int) : toInt32 (n % 2 ^ w) = toInt32 n := by
  obtain ⟨k, rfl⟩ : ∃ k, w = 32 + k := ⟨w - 32, by omega⟩
  have hd : (2 : Int) ^ 32 ∣ 2 ^ (32 + k) := ⟨2 ^ k, by rw [Int.pow_add]⟩
  unfold toInt32
  rw [Int.add_emod, Int.emod_emod_of_dvd n hd, ← Int.add_emod]

theorem toInt32_small {n : Int} (h1 : -2 ^ 31 ≤ n) (h2 : n < 2 ^ 31) : toInt32 n = n := by
  unfold toInt32; omega

/-- On unsigned types of 32 bits or more, the check is exact if the distance is an `int`. -/
theorem C149_unsigned_partial {w : Nat} (hw : 32 ≤ w) {e x : Nat} (tol : Nat) (h : ((e : Int) - x).natAbs < 2 ^ 31) :
    passesUnsigned w e x tol = .ok (decide (((e : Int) - x).natAbs ≤ tol)) := by
  unfold passesUnsigned
  rw [toInt32_mod hw, toInt32_small (by omega) (by omega), cabs, if_neg (by omega)]
  show Res.ok _ = _
  congr 2
  apply propext
  split <;> omega

/-- C149 is false for unsigned types of more bits: numbers that differ by a multiple of `2^32` pass for every tolerance. -/
theorem C149_unsigned_refuted {w : Nat} (hw : 32 ≤ w) (x k tol : Nat) : passesUnsigned w (x + k * 2 ^ 32) x tol = .ok true := by
  unfold passesUnsigned
  have : toInt32 (((x + k * 2 ^ 32 : Nat) : Int) - x) = 0 := by unfold toInt32; omega
  rw [toInt32_mod hw, this]
  show Res.ok (decide ((0 : Int) ≤ tol)) = _
  have : (0 : Int) ≤ tol := by omega
  simp [this]

end Helper.TestC.Within
