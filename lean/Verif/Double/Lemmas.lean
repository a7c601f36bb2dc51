import Verif.Double.Model
/-!
# Lemmas on rounding
-/
set_option linter.unusedSectionVars false
namespace Helper.Double

theorem two_pos (e : Int) : (0 : Rat) < 2 ^ e := Rat.zpow_pos (by decide)

theorem two_add (a b : Int) : (2 : Rat) ^ (a + b) = 2 ^ a * 2 ^ b := Rat.zpow_add (by decide) a b

theorem two_succ (a : Int) : (2 : Rat) ^ (a + 1) = 2 * 2 ^ a := by
  rw [two_add, Rat.zpow_one]; grind

theorem two_nat (n : Nat) : (2 : Rat) ^ (n : Int) = ((2 ^ n : Nat) : Rat) := by
  rw [Rat.zpow_natCast]
  induction n with
  | zero => rfl
  | succ n ih => rw [Rat.pow_succ, ih, Nat.pow_succ, Rat.natCast_mul]; rfl

theorem one_le_two (n : Nat) : (1 : Rat) ≤ 2 ^ (n : Int) := by
  rw [two_nat]
  exact_mod_cast Nat.one_le_two_pow

theorem two_mono {a b : Int} (h : a ≤ b) : (2 : Rat) ^ a ≤ 2 ^ b := by
  obtain ⟨n, rfl⟩ : ∃ n : Nat, b = a + n := ⟨(b - a).toNat, by omega⟩
  rw [two_add]
  have := Rat.mul_le_mul_of_nonneg_left (one_le_two n) (Rat.le_of_lt (two_pos a))
  grind

theorem two_lt {a b : Int} (h : (2 : Rat) ^ a < 2 ^ b) : a < b := by
  rcases Int.lt_or_le a b with h' | h'
  · exact h'
  · have := two_mono h'
    grind

theorem lt_of_mul {a b c : Rat} (hc : 0 < c) (h : a * c < b * c) : a < b := by
  rcases Rat.le_total (a := b) (b := a) with h' | h'
  · have := Rat.mul_le_mul_of_nonneg_right h' (Rat.le_of_lt hc)
    grind
  · by_cases e : a = b
    · subst e; grind
    · grind

theorem le_of_eq' {a b : Rat} (h : a = b) : a ≤ b := by rw [h]; exact Rat.le_refl

theorem le_of_mul {a b c : Rat} (hc : 0 < c) (h : a * c ≤ b * c) : a ≤ b := by
  apply Classical.byContradiction
  intro h'
  have := Rat.mul_lt_mul_of_pos_right (Rat.not_le.1 h') hc
  grind

theorem expo_spec {x : Rat} (h : 0 < x) : (2 : Rat) ^ (expo x) ≤ x ∧ x < 2 ^ (expo x + 1) := by
  have hn : 0 < x.num := by
    have := (Rat.lt_iff 0 x).1 h
    simpa using this
  obtain ⟨n, hn'⟩ : ∃ n : Nat, x.num = n := ⟨x.num.toNat, by omega⟩
  have hn0 : n ≠ 0 := by omega
  have hd0 : x.den ≠ 0 := x.den_nz
  have a1 : ((2 ^ n.log2 : Nat) : Rat) ≤ n := by exact_mod_cast Nat.log2_self_le hn0
  have a2 : (n : Rat) < ((2 ^ (n.log2 + 1) : Nat) : Rat) := by exact_mod_cast Nat.lt_log2_self
  have b1 : ((2 ^ x.den.log2 : Nat) : Rat) ≤ x.den := by exact_mod_cast Nat.log2_self_le hd0
  have b2 : (x.den : Rat) < ((2 ^ (x.den.log2 + 1) : Nat) : Rat) := by exact_mod_cast Nat.lt_log2_self
  have hd : (0 : Rat) < x.den := by exact_mod_cast Nat.pos_of_ne_zero hd0
  rw [← two_nat] at a1 a2 b1 b2
  rw [Int.natCast_add, Int.natCast_one, two_succ] at a2 b2
  have hx : x * x.den = n := by
    have e : x = (n : Rat) / x.den := by
      conv => lhs; rw [← Rat.mkRat_self x, Rat.mkRat_eq_div, hn']
      rfl
    conv => lhs; lhs; rw [e]
    exact Rat.div_mul_cancel (by grind)
  generalize hA : (n.log2 : Int) = ln at *
  generalize hB : (x.den.log2 : Int) = ld at *
  have hE : (2 : Rat) ^ (ln - ld) * 2 ^ ld = 2 ^ ln := by rw [← two_add]; congr 1; omega
  have pA := two_pos ln
  have pB := two_pos ld
  have pE := two_pos (ln - ld)
  have lo : (2 : Rat) ^ (ln - ld) < 2 * x := by
    apply lt_of_mul pB
    have := Rat.mul_lt_mul_of_pos_left b2 h
    grind
  have hi : x < 2 * 2 ^ (ln - ld) := by
    apply lt_of_mul pB
    have := Rat.mul_le_mul_of_nonneg_left b1 (Rat.le_of_lt h)
    grind
  have he : expo x = if (2 : Rat) ^ (ln - ld) ≤ x then ln - ld else ln - ld - 1 := by
    simp only [expo, hn', Int.toNat_natCast, hA, hB]
  rw [he]
  split
  · rename_i h1
    exact ⟨h1, by rw [two_succ]; exact hi⟩
  · rename_i h1
    have e : (2 : Rat) ^ (ln - ld) = 2 * 2 ^ (ln - ld - 1) := by rw [← two_succ]; congr 1; omega
    refine ⟨by grind, ?_⟩
    rw [show ln - ld - 1 + 1 = ln - ld by omega]
    grind

/-- The distance of two numbers. -/
def dist (x y : Rat) : Rat := if x ≤ y then y - x else x - y

theorem cast_le {a b : Int} (h : a ≤ b) : (a : Rat) ≤ b := Rat.intCast_le_intCast.2 h

theorem nearestInt_half (x : Rat) : dist x (nearestInt x) ≤ 1 / 2 := by
  have h1 := Rat.floor_le x
  have h2 := Rat.lt_floor_add_one x
  rw [Rat.intCast_add] at h2
  unfold dist nearestInt
  simp only
  have e : ((x.floor + 1 : Int) : Rat) = x.floor + 1 := by rw [Rat.intCast_add]; rfl
  have h2' : x < x.floor + 1 := h2
  split <;> (repeat' split) <;> grind

theorem nearestInt_le (x : Rat) (k : Int) : dist x (nearestInt x) ≤ dist x k := by
  have h0 := nearestInt_half x
  rcases Int.lt_trichotomy k (nearestInt x) with h | h | h
  · have := cast_le (show k + 1 ≤ nearestInt x by omega)
    rw [Rat.intCast_add] at this
    have h3 : (k : Rat) + 1 ≤ nearestInt x := this
    unfold dist at *
    grind
  · rw [h]; grind
  · have := cast_le (show nearestInt x + 1 ≤ k by omega)
    rw [Rat.intCast_add] at this
    have h3 : (nearestInt x : Rat) + 1 ≤ k := this
    unfold dist at *
    grind

theorem nearestInt_ge {x : Rat} {k : Int} (h : (k : Rat) ≤ x) : k ≤ nearestInt x := by
  have := Rat.le_floor_iff.2 h
  unfold nearestInt
  simp only
  (repeat' split) <;> omega

theorem nearestInt_le_of {x : Rat} {k : Int} (h : x ≤ k) : nearestInt x ≤ k := by
  have h1 := Rat.floor_le x
  have h2 : x.floor ≤ k := by
    have : (x.floor : Rat) ≤ k := by grind
    exact_mod_cast this
  unfold nearestInt
  simp only
  have h3 : x - x.floor ≥ 1 / 2 → x.floor + 1 ≤ k := by
    intro h3
    have : (x.floor : Rat) < k := by grind
    have : x.floor < k := by exact_mod_cast this
    omega
  split
  · exact h2
  · split
    · exact h3 (by grind)
    · split
      · exact h2
      · exact h3 (by grind)

theorem nearestInt_even {x : Rat} (h : dist x (nearestInt x) = 1 / 2) : nearestInt x % 2 = 0 := by
  have h1 := Rat.floor_le x
  have h2 := Rat.lt_floor_add_one x
  have e : ((x.floor + 1 : Int) : Rat) = x.floor + 1 := by rw [Rat.intCast_add]; rfl
  rw [e] at h2
  have hc : (1 / 2 : Rat) + 1 / 2 = 1 := by decide +kernel
  unfold nearestInt at *
  simp only at *
  generalize (1 / 2 : Rat) = c at *
  have hle := le_of_eq' h
  have hge := le_of_eq' h.symm
  clear h
  by_cases a1 : x - x.floor < c
  · rw [if_pos a1] at hle hge
    unfold dist at *
    exfalso
    split at hle <;> split at hge <;> grind
  · by_cases a2 : c < x - x.floor
    · rw [if_neg a1, if_pos a2, e] at hle hge
      unfold dist at *
      exfalso
      split at hle <;> split at hge <;> grind
    · rw [if_neg a1, if_neg a2]
      split <;> omega

/-! ### Numbers of the format -/

/-- The numbers `k * 2^j` with `|k| < 2^p`. -/
def Float (p : Nat) (y : Rat) : Prop := ∃ k j : Int, -2 ^ p < k ∧ k < 2 ^ p ∧ y = (k : Rat) * 2 ^ j

theorem dist_mul {x y u : Rat} (hu : 0 < u) : dist (x * u) (y * u) = dist x y * u := by
  unfold dist
  by_cases h : x ≤ y
  · have := Rat.mul_le_mul_of_nonneg_right h (Rat.le_of_lt hu)
    rw [if_pos h, if_pos this]; grind
  · have h' : y < x := Rat.not_le.1 h
    have := Rat.mul_lt_mul_of_pos_right h' hu
    rw [if_neg h, if_neg (Rat.not_le.2 this)]; grind

theorem dist_neg (x y : Rat) : dist (-x) (-y) = dist x y := by
  unfold dist
  split <;> split <;> grind

theorem dist_comm (x y : Rat) : dist x y = dist y x := by
  unfold dist
  split <;> split <;> grind

theorem float_neg {p : Nat} {y : Rat} (h : Float p y) : Float p (-y) := by
  obtain ⟨k, j, h1, h2, h3⟩ := h
  refine ⟨-k, j, by omega, by omega, ?_⟩
  rw [h3, Rat.intCast_neg]; grind

theorem float_zero (p : Nat) : Float p 0 := by
  have : (0 : Int) < 2 ^ p := Int.pow_pos (by decide)
  exact ⟨0, 0, by omega, by omega, by simp⟩

section pos
variable {p : Nat} (hp : 0 < p) {x : Rat} (hx : 0 < x)
include hp hx

theorem ulp_pos : 0 < ulp p x := two_pos _

theorem ulp_spec : ((2 ^ (p - 1) : Nat) : Rat) * ulp p x ≤ x ∧ x < ((2 ^ p : Nat) : Rat) * ulp p x := by
  have h := expo_spec hx
  rw [← two_nat, ← two_nat, ulp, ← two_add, ← two_add]
  rw [show ((p - 1 : Nat) : Int) + (expo x + 1 - (p : Int)) = expo x by omega,
    show (p : Int) + (expo x + 1 - (p : Int)) = expo x + 1 by omega]
  exact h

theorem div_ulp : x / ulp p x * ulp p x = x := Rat.div_mul_cancel (by have := ulp_pos hp hx; grind)

theorem quot_spec : ((2 ^ (p - 1) : Nat) : Rat) ≤ x / ulp p x ∧ x / ulp p x < ((2 ^ p : Nat) : Rat) := by
  have h := ulp_spec hp hx
  have hu := ulp_pos hp hx
  rw [← div_ulp hp hx] at h
  refine ⟨le_of_mul hu ?_, lt_of_mul hu ?_⟩
  · rw [div_ulp hp hx] at h ⊢; exact h.1
  · rw [div_ulp hp hx] at h ⊢; exact h.2

theorem mant_spec : (2 ^ (p - 1) : Int) ≤ nearestInt (x / ulp p x) ∧ nearestInt (x / ulp p x) ≤ 2 ^ p := by
  have h := quot_spec hp hx
  refine ⟨nearestInt_ge ?_, nearestInt_le_of ?_⟩
  · have := h.1; exact_mod_cast this
  · have := Rat.le_of_lt h.2; exact_mod_cast this

theorem float_roundPos : Float p (roundPos p x) := by
  have h := mant_spec hp hx
  have hpos : (0 : Int) < 2 ^ (p - 1) := Int.pow_pos (by decide)
  have h2 : (2 : Int) ^ p = 2 * 2 ^ (p - 1) := by
    obtain ⟨n, rfl⟩ : ∃ n, p = n + 1 := ⟨p - 1, by omega⟩
    rw [Nat.add_sub_cancel, Int.pow_succ]; omega
  rcases Int.lt_or_eq_of_le h.2 with h' | h'
  · exact ⟨_, _, by omega, h', rfl⟩
  · refine ⟨2 ^ (p - 1), expo x + 1 - p + 1, by omega, by omega, ?_⟩
    rw [roundPos, h', ulp, two_succ, h2, Rat.intCast_mul]
    have : ((2 : Int) : Rat) = 2 := rfl
    rw [this]
    grind

theorem round_err : dist x (roundPos p x) ≤ 1 / 2 * ulp p x := by
  have hu := ulp_pos hp hx
  rw [roundPos]
  have h := Rat.mul_le_mul_of_nonneg_right (nearestInt_half (x / ulp p x)) (Rat.le_of_lt hu)
  rw [← dist_mul hu, div_ulp hp hx] at h
  exact h

theorem roundPos_nearest {y : Rat} (hy : Float p y) : dist x (roundPos p x) ≤ dist x y := by
  obtain ⟨k, j, h1, h2, rfl⟩ := hy
  have hu := ulp_pos hp hx
  by_cases hj : expo x + 1 - (p : Int) ≤ j
  · -- `y` is a multiple of `ulp`
    obtain ⟨n, hn⟩ : ∃ n : Nat, j = n + (expo x + 1 - (p : Int)) := ⟨(j - (expo x + 1 - (p : Int))).toNat, by omega⟩
    have e : (k : Rat) * 2 ^ j = ((k * 2 ^ n : Int) : Rat) * ulp p x := by
      rw [hn, two_add, two_nat, Rat.intCast_mul, ulp]
      have : ((2 ^ n : Nat) : Rat) = ((2 ^ n : Int) : Rat) := by norm_cast
      rw [this]; grind
    have h := Rat.mul_le_mul_of_nonneg_right (nearestInt_le (x / ulp p x) (k * 2 ^ n)) (Rat.le_of_lt hu)
    rw [← dist_mul hu, ← dist_mul hu, div_ulp hp hx, ← e] at h
    exact h
  · -- `y` is below the numbers with this `ulp`
    have hlow : (k : Rat) * 2 ^ j ≤ ((2 ^ (p - 1) : Nat) : Rat) * ulp p x := by
      have hk : (k : Rat) ≤ ((2 ^ p : Nat) : Rat) := by
        have : k ≤ 2 ^ p := by omega
        exact_mod_cast this
      have a := Rat.mul_le_mul_of_nonneg_right hk (Rat.le_of_lt (two_pos j))
      have b : ((2 ^ p : Nat) : Rat) * 2 ^ j ≤ ((2 ^ (p - 1) : Nat) : Rat) * ulp p x := by
        rw [← two_nat, ← two_nat, ulp, ← two_add, ← two_add]
        exact two_mono (by omega)
      grind
    have hs := (ulp_spec hp hx).1
    have h := Rat.mul_le_mul_of_nonneg_right (nearestInt_le (x / ulp p x) (2 ^ (p - 1))) (Rat.le_of_lt hu)
    rw [← dist_mul hu, ← dist_mul hu, div_ulp hp hx] at h
    have e : ((2 ^ (p - 1) : Int) : Rat) = ((2 ^ (p - 1) : Nat) : Rat) := by norm_cast
    rw [e] at h
    refine Rat.le_trans h ?_
    unfold dist
    split <;> split <;> grind

theorem roundPos_pos : 0 < roundPos p x := by
  have h := (mant_spec hp hx).1
  have hpos : (0 : Int) < 2 ^ (p - 1) := Int.pow_pos (by decide)
  exact Rat.mul_pos (Rat.intCast_pos.2 (by omega)) (ulp_pos hp hx)

end pos

end Helper.Double
