import Verif.Double.Text
import Verif.Double.Props
/-!
# Lemmas on decimal numbers
-/
set_option linter.unusedSectionVars false
namespace Helper.Double

/-! ### Powers of ten -/

theorem ten_pos (e : Int) : (0 : Rat) < 10 ^ e := Rat.zpow_pos (by decide)

theorem ten_add (a b : Int) : (10 : Rat) ^ (a + b) = 10 ^ a * 10 ^ b := Rat.zpow_add (by decide) a b

theorem ten_succ (a : Int) : (10 : Rat) ^ (a + 1) = 10 * 10 ^ a := by
  rw [ten_add, Rat.zpow_one]; grind

theorem ten_nat (n : Nat) : (10 : Rat) ^ (n : Int) = ((10 ^ n : Nat) : Rat) := by
  rw [Rat.zpow_natCast]
  induction n with
  | zero => rfl
  | succ n ih => rw [Rat.pow_succ, ih, Nat.pow_succ, Rat.natCast_mul]; rfl

theorem one_le_ten (n : Nat) : (1 : Rat) ≤ 10 ^ (n : Int) := by
  rw [ten_nat]
  exact_mod_cast Nat.pow_pos (by decide)

theorem ten_mono {a b : Int} (h : a ≤ b) : (10 : Rat) ^ a ≤ 10 ^ b := by
  obtain ⟨n, rfl⟩ : ∃ n : Nat, b = a + n := ⟨(b - a).toNat, by omega⟩
  rw [ten_add]
  have := Rat.mul_le_mul_of_nonneg_left (one_le_ten n) (Rat.le_of_lt (ten_pos a))
  grind

theorem ten_lt {a b : Int} (h : (10 : Rat) ^ a < 10 ^ b) : a < b := by
  rcases Int.lt_or_le a b with h' | h'
  · exact h'
  · have := ten_mono h'
    grind

/-! ### The decimal exponent -/

theorem log10Fuel_spec : ∀ (fuel n : Nat), n ≤ fuel → 0 < n → 10 ^ log10Fuel fuel n ≤ n ∧ n < 10 ^ (log10Fuel fuel n + 1) := by
  intro fuel
  induction fuel with
  | zero => intro n h1 h2; omega
  | succ fuel ih =>
    intro n h1 h2
    rw [log10Fuel]
    split
    · rename_i h; exact ⟨by simp; omega, by simpa using h⟩
    · rename_i h
      obtain ⟨a, b⟩ := ih (n / 10) (by omega) (by omega)
      rw [Nat.pow_succ] at b ⊢
      rw [Nat.pow_succ]
      omega

theorem log10_spec {n : Nat} (h : 0 < n) : 10 ^ log10 n ≤ n ∧ n < 10 ^ (log10 n + 1) := log10Fuel_spec n n (Nat.le_refl n) h

theorem dexpo_spec {x : Rat} (h : 0 < x) : (10 : Rat) ^ (dexpo x) ≤ x ∧ x < 10 ^ (dexpo x + 1) := by
  have hn : 0 < x.num := by
    have := (Rat.lt_iff 0 x).1 h
    simpa using this
  obtain ⟨n, hn'⟩ : ∃ n : Nat, x.num = n := ⟨x.num.toNat, by omega⟩
  have hn0 : 0 < n := by omega
  have hd0 : 0 < x.den := Nat.pos_of_ne_zero x.den_nz
  have a1 : ((10 ^ log10 n : Nat) : Rat) ≤ n := by exact_mod_cast (log10_spec hn0).1
  have a2 : (n : Rat) < ((10 ^ (log10 n + 1) : Nat) : Rat) := by exact_mod_cast (log10_spec hn0).2
  have b1 : ((10 ^ log10 x.den : Nat) : Rat) ≤ x.den := by exact_mod_cast (log10_spec hd0).1
  have b2 : (x.den : Rat) < ((10 ^ (log10 x.den + 1) : Nat) : Rat) := by exact_mod_cast (log10_spec hd0).2
  have hd : (0 : Rat) < x.den := by exact_mod_cast hd0
  rw [← ten_nat] at a1 a2 b1 b2
  rw [Int.natCast_add, Int.natCast_one, ten_succ] at a2 b2
  have hx : x * x.den = n := by
    have e : x = (n : Rat) / x.den := by
      conv => lhs; rw [← Rat.mkRat_self x, Rat.mkRat_eq_div, hn']
      rfl
    conv => lhs; lhs; rw [e]
    exact Rat.div_mul_cancel (by grind)
  generalize hA : (log10 n : Int) = ln at *
  generalize hB : (log10 x.den : Int) = ld at *
  have hE : (10 : Rat) ^ (ln - ld) * 10 ^ ld = 10 ^ ln := by rw [← ten_add]; congr 1; omega
  have pA := ten_pos ln
  have pB := ten_pos ld
  have pE := ten_pos (ln - ld)
  have lo : (10 : Rat) ^ (ln - ld) < 10 * x := by
    apply lt_of_mul pB
    have := Rat.mul_lt_mul_of_pos_left b2 h
    grind
  have hi : x < 10 * 10 ^ (ln - ld) := by
    apply lt_of_mul pB
    have := Rat.mul_le_mul_of_nonneg_left b1 (Rat.le_of_lt h)
    grind
  have he : dexpo x = if (10 : Rat) ^ (ln - ld) ≤ x then ln - ld else ln - ld - 1 := by
    simp only [dexpo, hn', Int.toNat_natCast, hA, hB]
  rw [he]
  split
  · rename_i h1
    exact ⟨h1, by rw [ten_succ]; exact hi⟩
  · rename_i h1
    have e : (10 : Rat) ^ (ln - ld) = 10 * 10 ^ (ln - ld - 1) := by rw [← ten_succ]; congr 1; omega
    refine ⟨by grind, ?_⟩
    rw [show ln - ld - 1 + 1 = ln - ld by omega]
    grind

theorem dexpo_unique {x : Rat} {e : Int} (h1 : (10 : Rat) ^ e ≤ x) (h2 : x < 10 ^ (e + 1)) : dexpo x = e := by
  have hx : 0 < x := by have := ten_pos e; grind
  obtain ⟨a, b⟩ := dexpo_spec hx
  have c1 : e < dexpo x + 1 := ten_lt (by grind)
  have c2 : dexpo x < e + 1 := ten_lt (by grind)
  omega

/-! ### Nearest integers -/

theorem nearestInt_eq {x : Rat} {k : Int} (h : dist x k < 1 / 2) : nearestInt x = k := by
  have h0 := nearestInt_half x
  have h1 : (nearestInt x : Rat) < ((k + 1 : Int) : Rat) := by
    rw [Rat.intCast_add]
    have : ((1 : Int) : Rat) = 1 := rfl
    rw [this]
    unfold dist at h h0
    grind
  have h2 : ((k - 1 : Int) : Rat) < (nearestInt x : Rat) := by
    rw [Rat.intCast_sub]
    have : ((1 : Int) : Rat) = 1 := rfl
    rw [this]
    unfold dist at h h0
    grind
  have h1' : nearestInt x < k + 1 := by exact_mod_cast h1
  have h2' : k - 1 < nearestInt x := by exact_mod_cast h2
  omega

/-! ### Rounding to `P` digits -/

section
variable {P : Nat} (hP : 0 < P) {x : Rat} (hx : 0 < x)
include hP hx

/-- The last digit's unit. -/
def unit (P : Nat) (x : Rat) : Rat := (10 : Rat) ^ (dexpo x + 1 - (P : Int))

theorem unit_pos : 0 < unit P x := ten_pos _

theorem unit_spec : ((10 ^ (P - 1) : Nat) : Rat) * unit P x ≤ x ∧ x < ((10 ^ P : Nat) : Rat) * unit P x := by
  have h := dexpo_spec hx
  rw [← ten_nat, ← ten_nat, unit, ← ten_add, ← ten_add]
  rw [show ((P - 1 : Nat) : Int) + (dexpo x + 1 - (P : Int)) = dexpo x by omega,
    show (P : Int) + (dexpo x + 1 - (P : Int)) = dexpo x + 1 by omega]
  exact h

theorem div_unit : x / unit P x * unit P x = x := Rat.div_mul_cancel (by have := unit_pos hP hx; grind)

theorem digits_spec' : (10 ^ (P - 1) : Int) ≤ nearestInt (x / unit P x) ∧ nearestInt (x / unit P x) ≤ 10 ^ P := by
  have h := unit_spec hP hx
  have hu := unit_pos hP hx
  refine ⟨nearestInt_ge ?_, nearestInt_le_of ?_⟩
  · have : ((10 ^ (P - 1) : Nat) : Rat) ≤ x / unit P x := le_of_mul hu (by rw [div_unit hP hx]; exact h.1)
    exact_mod_cast this
  · have : x / unit P x ≤ ((10 ^ P : Nat) : Rat) := le_of_mul hu (by rw [div_unit hP hx]; exact Rat.le_of_lt h.2)
    exact_mod_cast this

/-- The number that is written. -/
def decValue (P : Nat) (d : Nat × Int) : Rat := (d.1 : Rat) * (10 : Rat) ^ (d.2 + 1 - (P : Int))

theorem decimal_value : decValue P (decimal P x) = (nearestInt (x / unit P x) : Rat) * unit P x := by
  have h := digits_spec' hP hx
  have hpos : (0 : Int) < 10 ^ (P - 1) := Int.pow_pos (by decide)
  obtain ⟨m, hm⟩ : ∃ m : Nat, nearestInt (x / unit P x) = m := ⟨(nearestInt (x / unit P x)).toNat, by omega⟩
  have e : decimal P x = if m = 10 ^ P then (10 ^ (P - 1), dexpo x + 1) else (m, dexpo x) := by
    simp only [decimal]
    rw [show (10 : Rat) ^ (dexpo x + 1 - (P : Int)) = unit P x from rfl, hm, Int.toNat_natCast]
  rw [e, hm]
  split
  · rename_i hm'
    rw [decValue, hm', unit]
    simp only
    rw [show dexpo x + 1 + 1 - (P : Int) = (dexpo x + 1 - (P : Int)) + 1 by omega, ten_succ]
    obtain ⟨n, rfl⟩ : ∃ n, P = n + 1 := ⟨P - 1, by omega⟩
    rw [Nat.add_sub_cancel, Nat.pow_succ]
    have : (((10 ^ n * 10 : Nat) : Int) : Rat) = ((10 ^ n : Nat) : Rat) * 10 := by
      rw [Rat.intCast_natCast, Rat.natCast_mul]; rfl
    rw [this]
    grind
  · rw [decValue, unit, Rat.intCast_natCast]

theorem decimal_spec : 10 ^ (P - 1) ≤ (decimal P x).1 ∧ (decimal P x).1 < 10 ^ P := by
  have h := digits_spec' hP hx
  obtain ⟨m, hm⟩ : ∃ m : Nat, nearestInt (x / unit P x) = m := by
    have hpos : (0 : Int) < 10 ^ (P - 1) := Int.pow_pos (by decide)
    exact ⟨(nearestInt (x / unit P x)).toNat, by omega⟩
  have e : decimal P x = if m = 10 ^ P then (10 ^ (P - 1), dexpo x + 1) else (m, dexpo x) := by
    simp only [decimal]
    rw [show (10 : Rat) ^ (dexpo x + 1 - (P : Int)) = unit P x from rfl, hm, Int.toNat_natCast]
  rw [hm] at h
  have h1 : 10 ^ (P - 1) ≤ m := by exact_mod_cast h.1
  have h2 : m ≤ 10 ^ P := by exact_mod_cast h.2
  rw [e]
  split
  · exact ⟨Nat.le_refl _, Nat.pow_lt_pow_right (by decide) (by omega)⟩
  · exact ⟨h1, by omega⟩

theorem decimal_error : dist x (decValue P (decimal P x)) ≤ 1 / 2 * unit P x := by
  have hu := unit_pos hP hx
  rw [decimal_value hP hx]
  have h := Rat.mul_le_mul_of_nonneg_right (nearestInt_half (x / unit P x)) (Rat.le_of_lt hu)
  rw [← dist_mul hu, div_unit hP hx] at h
  exact h

/-- The error, compared with the number. -/
theorem decimal_close : 2 * dist x (decValue P (decimal P x)) * ((10 ^ (P - 1) : Nat) : Rat) ≤ x := by
  have h1 := decimal_error hP hx
  have h2 := (unit_spec hP hx).1
  have h3 : (0 : Rat) ≤ ((10 ^ (P - 1) : Nat) : Rat) := Rat.natCast_nonneg
  have := Rat.mul_le_mul_of_nonneg_right h1 h3
  grind

end

/-- Rounding to `P` digits finds a number of `P` digits that is near. -/
theorem decimal_unique {P m : Nat} (hP : 0 < P) {k : Int} {x : Rat} (h1 : 10 ^ (P - 1) ≤ m) (h2 : m < 10 ^ P)
    (hd : dist x ((m : Rat) * 10 ^ k) * ((2 * 10 ^ P : Nat) : Rat) < (m : Rat) * 10 ^ k) : decimal P x = (m, k + P - 1) := by
  have hk := ten_pos k
  have e10 : (10 : Nat) ^ P = 10 * 10 ^ (P - 1) := by
    obtain ⟨n, rfl⟩ : ∃ n, P = n + 1 := ⟨P - 1, by omega⟩
    rw [Nat.add_sub_cancel, Nat.pow_succ]; omega
  have hA : (0 : Rat) < ((10 ^ (P - 1) : Nat) : Rat) := by exact_mod_cast Nat.pow_pos (by decide)
  have eA : ((10 ^ P : Nat) : Rat) = 10 * ((10 ^ (P - 1) : Nat) : Rat) := by rw [e10, Rat.natCast_mul]; rfl
  have e2 : ((2 * 10 ^ P : Nat) : Rat) = 2 * ((10 ^ P : Nat) : Rat) := by rw [Rat.natCast_mul]; rfl
  have m1 : ((10 ^ (P - 1) : Nat) : Rat) ≤ m := by exact_mod_cast h1
  have m2 : (m : Rat) + 1 ≤ ((10 ^ P : Nat) : Rat) := by exact_mod_cast h2
  -- in units of the last digit
  obtain ⟨y, hy⟩ : ∃ y : Rat, y * 10 ^ k = x := ⟨x / 10 ^ k, Rat.div_mul_cancel (by grind)⟩
  rw [← hy, dist_mul hk] at hd
  have hd' : dist y m * ((2 * 10 ^ P : Nat) : Rat) < m := by apply lt_of_mul hk; grind
  have p1 : (10 : Rat) ^ (k + P - 1) = ((10 ^ (P - 1) : Nat) : Rat) * 10 ^ k := by
    rw [← ten_nat, ← ten_add]; congr 1; omega
  have p2 : (10 : Rat) ^ (k + P - 1 + 1) = ((10 ^ P : Nat) : Rat) * 10 ^ k := by
    rw [← ten_nat, ← ten_add]; congr 1; omega
  have hu : dist y m < 1 / 2 := by
    have hpos : (0 : Rat) < ((2 * 10 ^ P : Nat) : Rat) := by exact_mod_cast Nat.mul_pos (by decide) (Nat.pow_pos (by decide))
    apply lt_of_mul hpos
    rw [e2] at hd' ⊢
    grind
  have hy2 : y < ((10 ^ P : Nat) : Rat) := by unfold dist at hu; grind
  rcases Rat.le_total (a := ((10 ^ (P - 1) : Nat) : Rat)) (b := y) with hc | hc
  · have he : dexpo x = k + P - 1 := by
      apply dexpo_unique
      · rw [p1, ← hy]; exact Rat.mul_le_mul_of_nonneg_right hc (Rat.le_of_lt hk)
      · rw [p2, ← hy]; exact Rat.mul_lt_mul_of_pos_right hy2 hk
    have hn : nearestInt (x / 10 ^ k) = m := by
      have : x / 10 ^ k = y := by rw [← hy]; exact Rat.mul_div_cancel (by grind)
      rw [this]
      exact nearestInt_eq (by rw [Rat.intCast_natCast]; exact hu)
    simp only [decimal, he]
    rw [show k + (P : Int) - 1 + 1 - P = k by omega, hn, Int.toNat_natCast, if_neg (by omega)]
  · by_cases hc' : y = ((10 ^ (P - 1) : Nat) : Rat)
    · -- the same as above, with equality
      have he : dexpo x = k + P - 1 := by
        apply dexpo_unique
        · rw [p1, ← hy, hc']; exact Rat.le_refl
        · rw [p2, ← hy]; exact Rat.mul_lt_mul_of_pos_right hy2 hk
      have hn : nearestInt (x / 10 ^ k) = m := by
        have : x / 10 ^ k = y := by rw [← hy]; exact Rat.mul_div_cancel (by grind)
        rw [this]
        exact nearestInt_eq (by rw [Rat.intCast_natCast]; exact hu)
      simp only [decimal, he]
      rw [show k + (P : Int) - 1 + 1 - P = k by omega, hn, Int.toNat_natCast, if_neg (by omega)]
    · have hlt : y < ((10 ^ (P - 1) : Nat) : Rat) := by grind
      -- the number is the least one with `P` digits
      have hm : m = 10 ^ (P - 1) := by
        have : (m : Rat) < ((10 ^ (P - 1) + 1 : Nat) : Rat) := by
          rw [Rat.natCast_add]
          have : ((1 : Nat) : Rat) = 1 := rfl
          rw [this]
          unfold dist at hu
          grind
        have : m < 10 ^ (P - 1) + 1 := by exact_mod_cast this
        omega
      have hk' : (10 : Rat) ^ k = 10 * 10 ^ (k - 1) := by rw [← ten_succ]; congr 1; omega
      have hkp := ten_pos (k - 1)
      have hmr : (m : Rat) = ((10 ^ (P - 1) : Nat) : Rat) := by rw [hm]
      have hclose : dist (10 * y) ((10 ^ P : Nat) : Rat) < 1 / 2 := by
        have e : dist (10 * y) ((10 ^ P : Nat) : Rat) = dist y m * 10 := by
          rw [← dist_mul (by decide), eA, hmr]; congr 1 <;> grind
        rw [e]
        apply lt_of_mul hA
        rw [e2, eA] at hd'
        grind
      have hge : ((10 ^ (P - 1) : Nat) : Rat) ≤ 10 * y := by
        have : (1 : Rat) ≤ ((10 ^ (P - 1) : Nat) : Rat) := by exact_mod_cast Nat.pow_pos (by decide)
        rw [eA] at hclose
        unfold dist at hclose
        grind
      have q1 : (10 : Rat) ^ (k + P - 2) = ((10 ^ (P - 1) : Nat) : Rat) * 10 ^ (k - 1) := by
        rw [← ten_nat, ← ten_add]; congr 1; omega
      have q2 : (10 : Rat) ^ (k + P - 2 + 1) = ((10 ^ P : Nat) : Rat) * 10 ^ (k - 1) := by
        rw [← ten_nat, ← ten_add]; congr 1; omega
      have hx' : x = 10 * y * 10 ^ (k - 1) := by rw [← hy, hk']; grind
      have he : dexpo x = k + P - 2 := by
        apply dexpo_unique
        · rw [q1, hx']; exact Rat.mul_le_mul_of_nonneg_right hge (Rat.le_of_lt hkp)
        · rw [q2, hx']; exact Rat.mul_lt_mul_of_pos_right (by rw [eA]; grind) hkp
      have hn : nearestInt (x / 10 ^ (k - 1)) = ((10 ^ P : Nat) : Int) := by
        have : x / 10 ^ (k - 1) = 10 * y := by rw [hx']; exact Rat.mul_div_cancel (by grind)
        rw [this]
        exact nearestInt_eq (by rw [Rat.intCast_natCast]; exact hclose)
      simp only [decimal, he]
      rw [show k + (P : Int) - 2 + 1 - P = k - 1 by omega, hn, Int.toNat_natCast, if_pos rfl, hm]
      congr 1
      omega

/-! ### Distances of numbers of the format -/

theorem float_gap {p : Nat} {x r : Rat} (hx : Float p x) (hr : Float p r) (hpos : 0 < x) (hne : x ≠ r) :
    x ≤ dist x r * ((2 ^ p : Nat) : Rat) := by
  obtain ⟨a, i, _, ha, rfl⟩ := hx
  obtain ⟨b, j, _, hb, rfl⟩ := hr
  have hP1 : (1 : Rat) ≤ ((2 ^ p : Nat) : Rat) := by exact_mod_cast Nat.one_le_two_pow
  have ha' : (a : Rat) ≤ ((2 ^ p : Nat) : Rat) := by
    have : a ≤ 2 ^ p := by omega
    exact_mod_cast this
  have hb' : (b : Rat) + 1 ≤ ((2 ^ p : Nat) : Rat) := by
    have : b + 1 ≤ 2 ^ p := by omega
    exact_mod_cast this
  have di : ∀ {u v : Int}, u ≠ v → (1 : Rat) ≤ dist u v := by
    intro u v huv
    unfold dist
    rcases Int.lt_or_gt_of_ne huv with h | h
    · have : (u : Rat) + 1 ≤ v := by exact_mod_cast (show u + 1 ≤ v by omega)
      rw [if_pos (by grind)]; grind
    · have : (v : Rat) + 1 ≤ u := by exact_mod_cast (show v + 1 ≤ u by omega)
      rw [if_neg (by grind)]; grind
  rcases Int.le_total i j with hij | hij
  · obtain ⟨n, rfl⟩ : ∃ n : Nat, j = n + i := ⟨(j - i).toNat, by omega⟩
    have hi := two_pos i
    have e : (b : Rat) * 2 ^ ((n : Int) + i) = ((b * 2 ^ n : Int) : Rat) * 2 ^ i := by
      rw [two_add, two_nat, Rat.intCast_mul]
      have : ((2 ^ n : Nat) : Rat) = ((2 ^ n : Int) : Rat) := by norm_cast
      rw [this]; grind
    have h1 : a ≠ b * 2 ^ n := by rintro rfl; exact hne e.symm
    rw [e, dist_mul hi]
    have h2 := di h1
    have h3 := Rat.mul_le_mul_of_nonneg_right ha' (Rat.le_of_lt hi)
    have h4 : (0 : Rat) ≤ ((2 ^ p : Nat) : Rat) * 2 ^ i := Rat.mul_nonneg Rat.natCast_nonneg (Rat.le_of_lt hi)
    have h5 := Rat.mul_le_mul_of_nonneg_right h2 h4
    grind
  · obtain ⟨n, rfl⟩ : ∃ n : Nat, i = n + j := ⟨(i - j).toNat, by omega⟩
    have hj := two_pos j
    have e : (a : Rat) * 2 ^ ((n : Int) + j) = ((a * 2 ^ n : Int) : Rat) * 2 ^ j := by
      rw [two_add, two_nat, Rat.intCast_mul]
      have : ((2 ^ n : Nat) : Rat) = ((2 ^ n : Int) : Rat) := by norm_cast
      rw [this]; grind
    rw [e] at hpos hne ⊢
    rw [dist_mul hj]
    generalize a * 2 ^ n = c at *
    have h1 : c ≠ b := by rintro rfl; exact hne rfl
    have h2 := di h1
    have key : (c : Rat) ≤ dist c b * ((2 ^ p : Nat) : Rat) := by
      rcases Rat.le_total (a := (c : Rat)) (b := ((2 ^ p : Nat) : Rat)) with hc | hc
      · have := Rat.mul_le_mul_of_nonneg_right h2 (show (0 : Rat) ≤ ((2 ^ p : Nat) : Rat) from Rat.natCast_nonneg)
        grind
      · have hd : (c : Rat) - b ≤ dist c b := by unfold dist; split <;> grind
        have h3 := Rat.mul_le_mul_of_nonneg_right (show (c : Rat) - ((2 ^ p : Nat) : Rat) + 1 ≤ dist c b by grind)
          (show (0 : Rat) ≤ ((2 ^ p : Nat) : Rat) from Rat.natCast_nonneg)
        have h4 := Rat.mul_nonneg (show (0 : Rat) ≤ (c : Rat) - ((2 ^ p : Nat) : Rat) by grind) (show (0 : Rat) ≤ ((2 ^ p : Nat) : Rat) - 1 by grind)
        grind
    have := Rat.mul_le_mul_of_nonneg_right key (Rat.le_of_lt hj)
    grind

/-- Enough digits determine the number. -/
theorem round_decimal {p P : Nat} (hp : 0 < p) (hP : 0 < P) (h : 2 ^ p < 10 ^ (P - 1)) {x : Rat} (hx : 0 < x) (hf : Float p x) :
    round p (decValue P (decimal P x)) = x := by
  apply Classical.byContradiction
  intro hne
  have h1 := (C102_nearest hp (decValue P (decimal P x))).2 x hf
  have h2 := float_gap hf (C102_nearest hp (decValue P (decimal P x))).1 hx (fun e => hne e.symm)
  have h3 := decimal_close hP hx
  have h4 := dist_triangle x (decValue P (decimal P x)) (round p (decValue P (decimal P x)))
  generalize round p (decValue P (decimal P x)) = r at *
  generalize decValue P (decimal P x) = v at *
  rw [dist_comm v x] at h1
  have hT : ((2 ^ p : Nat) : Rat) < ((10 ^ (P - 1) : Nat) : Rat) := by exact_mod_cast h
  have h0 : (0 : Rat) < ((2 ^ p : Nat) : Rat) := by exact_mod_cast Nat.pow_pos (by decide)
  generalize ((2 ^ p : Nat) : Rat) = A at *
  generalize ((10 ^ (P - 1) : Nat) : Rat) = B at *
  have h5 : dist x r ≤ 2 * dist x v := by grind
  have h6 := Rat.mul_le_mul_of_nonneg_right h5 (show 0 ≤ B by grind)
  have h7 : dist x r * B ≤ x := by grind
  have h8 : 0 < dist x r := by
    apply lt_of_mul h0
    grind
  have h9 := Rat.mul_lt_mul_of_pos_left hT h8
  grind

end Helper.Double
