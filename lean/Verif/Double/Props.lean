import Verif.Double.Lemmas
import Verif.Stopwatch.Props
/-!
# Property C102: `Stopwatch::elapsed_seconds` in double precision
-/
set_option linter.unusedSectionVars false
namespace Helper.Double

theorem round_neg (p : Nat) (x : Rat) : round p (-x) = -round p x := by
  unfold round
  rcases Rat.le_total (a := x) (b := 0) with h | h <;> by_cases h0 : x = 0
  · subst h0; rfl
  · have : x < 0 := by grind
    rw [if_neg h0, if_pos this, if_neg (by grind), if_neg (by grind)]; grind
  · subst h0; rfl
  · have : 0 < x := by grind
    have a : ¬ -x = 0 := by grind
    have b : -x < 0 := by grind
    have c : ¬ x < 0 := by grind
    rw [if_neg a, if_pos b, if_neg h0, if_neg c, Rat.neg_neg]

theorem round_of_pos {p : Nat} {x : Rat} (h : 0 < x) : round p x = roundPos p x := by
  rw [round, if_neg (by grind), if_neg (by grind)]

/-- Every number is zero, positive, or the negative of a positive one. -/
theorem sign_cases {P : Rat → Prop} (h0 : P 0) (hp : ∀ x, 0 < x → P x) (hn : ∀ x, 0 < x → P x → P (-x)) (x : Rat) : P x := by
  by_cases h : x = 0
  · subst h; exact h0
  · by_cases h' : 0 < x
    · exact hp x h'
    · have : 0 < -x := by grind
      have := hn (-x) this (hp _ this)
      rwa [Rat.neg_neg] at this

theorem div_mono {a b c : Rat} (hc : 0 < c) (h : a ≤ b) : a / c ≤ b / c := by
  apply le_of_mul hc
  rw [Rat.div_mul_cancel (by grind), Rat.div_mul_cancel (by grind)]
  exact h

theorem div_pos {a c : Rat} (hc : 0 < c) (h : 0 < a) : 0 < a / c := by
  apply lt_of_mul hc
  rw [Rat.div_mul_cancel (by grind)]
  grind

theorem dist_nonneg (x y : Rat) : 0 ≤ dist x y := by
  unfold dist
  split <;> grind

theorem dist_triangle (x y z : Rat) : dist x z ≤ dist x y + dist y z := by
  unfold dist
  split <;> split <;> split <;> grind

section
variable {p : Nat} (hp : 0 < p)
include hp

/-- C102, on the model of rounding: the result is a number of the format, no other one is nearer. -/
theorem C102_nearest (x : Rat) : Float p (round p x) ∧ ∀ y, Float p y → dist x (round p x) ≤ dist x y := by
  refine sign_cases (P := fun x => Float p (round p x) ∧ ∀ y, Float p y → dist x (round p x) ≤ dist x y) ?_ ?_ ?_ x
  · refine ⟨float_zero p, fun y _ => ?_⟩
    show dist 0 0 ≤ dist 0 y
    unfold dist
    split <;> split <;> grind
  · intro x hx
    rw [round_of_pos hx]
    exact ⟨float_roundPos hp hx, fun y hy => roundPos_nearest hp hx hy⟩
  · intro x _ ⟨h1, h2⟩
    rw [round_neg]
    refine ⟨float_neg h1, fun y hy => ?_⟩
    have := h2 (-y) (float_neg hy)
    rw [dist_neg]
    rw [← dist_neg x (-y), Rat.neg_neg] at this
    exact this

/-- C102, on the model of rounding: numbers of the format are not changed. -/
theorem C102_exact {x : Rat} (h : Float p x) : round p x = x := by
  have := (C102_nearest hp x).2 x h
  unfold dist at this
  split at this <;> grind

/-- C102, on the model of rounding: of two equally near numbers the one with the even multiple of the distance is taken. -/
theorem C102_even {x : Rat} (hx : 0 < x) (h : dist x (round p x) = 1 / 2 * ulp p x) :
    ∃ k : Int, round p x = (2 * k : Int) * ulp p x ∧ 2 ^ (p - 1) ≤ 2 * k ∧ 2 * k ≤ 2 ^ p := by
  have hu := ulp_pos hp hx
  rw [round_of_pos hx] at h ⊢
  have e : dist (x / ulp p x) (nearestInt (x / ulp p x)) = 1 / 2 := by
    have : dist (x / ulp p x) (nearestInt (x / ulp p x)) * ulp p x = 1 / 2 * ulp p x := by
      rw [← dist_mul hu, div_ulp hp hx]; exact h
    have h2 : (dist (x / ulp p x) (nearestInt (x / ulp p x)) * ulp p x) / ulp p x = (1 / 2 * ulp p x) / ulp p x := by rw [this]
    rwa [Rat.mul_div_cancel (by grind), Rat.mul_div_cancel (by grind)] at h2
  have ev := nearestInt_even e
  have hm := mant_spec hp hx
  refine ⟨nearestInt (x / ulp p x) / 2, ?_, by omega, by omega⟩
  rw [roundPos]
  congr 2
  omega

/-- The distance of neighbours compared with the number. -/
theorem half_ulp {x : Rat} (hx : 0 < x) : 1 / 2 * ulp p x * ((2 ^ p : Nat) : Rat) ≤ x := by
  have h := (ulp_spec hp hx).1
  have e : ((2 ^ p : Nat) : Rat) = 2 * ((2 ^ (p - 1) : Nat) : Rat) := by
    obtain ⟨n, rfl⟩ : ∃ n, p = n + 1 := ⟨p - 1, by omega⟩
    rw [Nat.add_sub_cancel, Nat.pow_succ, Rat.natCast_mul]
    have : ((2 : Nat) : Rat) = 2 := rfl
    rw [this]; grind
  rw [e]
  grind

/-- C102, on the model of rounding: the error is at most `2^-p` times the number. -/
theorem C102_error (x : Rat) : dist x (round p x) * ((2 ^ p : Nat) : Rat) ≤ dist x 0 := by
  have hP : (0 : Rat) ≤ ((2 ^ p : Nat) : Rat) := Rat.natCast_nonneg
  refine sign_cases (P := fun x => dist x (round p x) * ((2 ^ p : Nat) : Rat) ≤ dist x 0) ?_ ?_ ?_ x
  · show dist 0 0 * _ ≤ dist 0 0
    unfold dist
    split <;> grind
  · intro x hx
    rw [round_of_pos hx]
    have h1 := Rat.mul_le_mul_of_nonneg_right (round_err hp hx) hP
    have h2 := half_ulp hp hx
    have e : dist x 0 = x := by unfold dist; split <;> grind
    rw [e]
    exact Rat.le_trans h1 h2
  · intro x _ h
    rw [round_neg, dist_neg]
    have : dist (-x) 0 = dist x 0 := by have := dist_neg x 0; simpa using this
    rw [this]
    exact h

/-- C102, on the model of rounding: it keeps the order. -/
theorem C102_mono {x y : Rat} (h : x ≤ y) : round p x ≤ round p y := by
  apply Classical.byContradiction
  intro hc
  have hc' := Rat.not_le.1 hc
  by_cases e : x = y
  · subst e; grind
  have h1 := (C102_nearest hp x).2 _ (C102_nearest hp y).1
  have h2 := (C102_nearest hp y).2 _ (C102_nearest hp x).1
  unfold dist at h1 h2
  generalize round p x = a at *
  generalize round p y = b at *
  split at h1 <;> split at h1 <;> split at h2 <;> split at h2 <;> grind

theorem round_pos {x : Rat} (h : 0 < x) : 0 < round p x := by
  rw [round_of_pos h]; exact roundPos_pos hp h

theorem float_int {k : Int} (h1 : -2 ^ p ≤ k) (h2 : k ≤ 2 ^ p) : Float p k := by
  have hpos : (0 : Int) < 2 ^ (p - 1) := Int.pow_pos (by decide)
  have e : (2 : Int) ^ p = 2 * 2 ^ (p - 1) := by
    obtain ⟨n, rfl⟩ : ∃ n, p = n + 1 := ⟨p - 1, by omega⟩
    rw [Nat.add_sub_cancel, Int.pow_succ]; omega
  have big : Float p ((2 ^ p : Int) : Rat) := by
    refine ⟨2 ^ (p - 1), 1, by omega, by omega, ?_⟩
    rw [e, Rat.intCast_mul, Rat.zpow_one]
    have : ((2 : Int) : Rat) = 2 := rfl
    rw [this]; grind
  by_cases a : k = 2 ^ p
  · rw [a]; exact big
  · by_cases b : k = -2 ^ p
    · rw [b, Rat.intCast_neg]; exact float_neg big
    · exact ⟨k, 0, by omega, by omega, by simp⟩

theorem round_int {k : Int} (h1 : -2 ^ p ≤ k) (h2 : k ≤ 2 ^ p) : round p k = k := C102_exact hp (float_int hp h1 h2)

theorem round_nat {n : Nat} (h : n ≤ 2 ^ p) : round p n = n := by
  have h' : (n : Int) ≤ 2 ^ p := by exact_mod_cast h
  have : (0 : Int) < 2 ^ p := Int.pow_pos (by decide)
  exact round_int hp (k := n) (by omega) h'

/-! ### Seconds -/

/-- C102: up to `2^p` units, the result is the number of seconds rounded once. -/
theorem C102_once_partial {den : Nat} (hd : 0 < den) (hd' : den ≤ 2 ^ p) {q : Int} (h1 : -2 ^ p ≤ q) (h2 : q ≤ 2 ^ p) :
    castSeconds p 1 den q = round p ((q : Rat) / (den : Rat)) := by
  simp only [castSeconds, if_true]
  rw [round_int hp h1 h2]
  split
  · rename_i e
    subst e
    have : (q : Rat) / ((1 : Nat) : Rat) = q := by show (q : Rat) / 1 = q; grind
    rw [this, round_int hp h1 h2]
  · rw [round_nat hp hd']

/-- C102: the same for a unit of `num/den` seconds, such as minutes. -/
theorem C102_ratio_partial {num den : Nat} (hn : 0 < num) (hn' : num ≤ 2 ^ p) (hd : 0 < den) (hd' : den ≤ 2 ^ p) {q : Int}
    (h1 : -2 ^ p ≤ q * num) (h2 : q * num ≤ 2 ^ p) :
    castSeconds p num den q = round p ((q : Rat) * (num : Rat) / (den : Rat)) := by
  have hq : -2 ^ p ≤ q ∧ q ≤ 2 ^ p := by
    have hP : (0 : Int) < 2 ^ p := Int.pow_pos (by decide)
    have hn1 : (1 : Int) ≤ num := by omega
    rcases Int.le_total 0 q with h | h
    · have := Int.mul_le_mul_of_nonneg_left hn1 h
      omega
    · have := Int.mul_le_mul_of_nonpos_left h hn1
      omega
  by_cases hn1 : num = 1
  · subst hn1
    rw [C102_once_partial hp hd hd' hq.1 hq.2]
    congr 2
    show (q : Rat) = q * 1
    grind
  · have e : (q : Rat) * (num : Rat) = ((q * num : Int) : Rat) := by rw [Rat.intCast_mul]; rfl
    simp only [castSeconds, if_neg hn1]
    rw [round_int hp hq.1 hq.2, round_nat hp hn', e, round_int hp h1 h2]
    split
    · rename_i e
      subst e
      have : ((q * num : Int) : Rat) / ((1 : Nat) : Rat) = ((q * num : Int) : Rat) := by
        show ((q * num : Int) : Rat) / 1 = _
        grind
      rw [this, round_int hp h1 h2]
    · rw [round_nat hp hd']

/-- C102: a longer reading never gives fewer seconds. -/
theorem C102_order {num den : Nat} (hn : 0 < num) (hd : 0 < den) {q r : Int} (h : q ≤ r) :
    castSeconds p num den q ≤ castSeconds p num den r := by
  have h0 : round p (q : Rat) ≤ round p r := C102_mono hp (Rat.intCast_le_intCast.2 h)
  have hd' : 0 < round p (den : Rat) := round_pos hp (Rat.natCast_pos.2 hd)
  have hn' : 0 < round p (num : Rat) := round_pos hp (Rat.natCast_pos.2 hn)
  have h1 := Rat.mul_le_mul_of_nonneg_right h0 (Rat.le_of_lt hn')
  simp only [castSeconds]
  split <;> split
  · exact h0
  · exact C102_mono hp (div_mono hd' h0)
  · exact C102_mono hp h1
  · exact C102_mono hp (div_mono hd' (C102_mono hp h1))

/-- C102: the seconds are zero, positive or negative as the reading is. -/
theorem C102_sign {num den : Nat} (hn : 0 < num) (hd : 0 < den) (q : Int) :
    castSeconds p num den 0 = 0 ∧ (0 < q → 0 < castSeconds p num den q) ∧ castSeconds p num den (-q) = -castSeconds p num den q := by
  have hd' : 0 < round p (den : Rat) := round_pos hp (Rat.natCast_pos.2 hd)
  have hn' : 0 < round p (num : Rat) := round_pos hp (Rat.natCast_pos.2 hn)
  have hneg : castSeconds p num den (-q) = -castSeconds p num den q := by
    simp only [castSeconds, Rat.intCast_neg, round_neg]
    have e : ∀ a b : Rat, -a / b = -(a / b) := fun a b => by grind
    have e' : ∀ a b : Rat, -a * b = -(a * b) := fun a b => by grind
    split <;> split <;> simp only [e, e', round_neg]
  refine ⟨?_, fun h => ?_, hneg⟩
  · have z : round p ((0 : Int) : Rat) = 0 := rfl
    have z' : round p (0 : Rat) = 0 := rfl
    have d : ∀ b : Rat, 0 / b = 0 := fun b => by grind
    simp only [castSeconds, z, Rat.zero_mul, d, z', ite_self]
  · have h0 : 0 < round p (q : Rat) := round_pos hp (Rat.intCast_pos.2 h)
    have h1 := Rat.mul_pos h0 hn'
    simp only [castSeconds]
    split <;> split
    · exact h0
    · exact round_pos hp (div_pos hd' h0)
    · exact round_pos hp h1
    · exact round_pos hp (div_pos hd' (round_pos hp h1))

/-- C102: up to `2^(p-1)` units, different readings give different numbers of seconds. -/
theorem C102_distinct_partial {den : Nat} (hd : 0 < den) (hd' : den ≤ 2 ^ p) {q r : Int} (h1 : -2 ^ (p - 1) ≤ q) (hqr : q < r)
    (h2 : r ≤ 2 ^ (p - 1)) : castSeconds p 1 den q < castSeconds p 1 den r := by
  have e : (2 : Int) ^ p = 2 * 2 ^ (p - 1) := by
    obtain ⟨n, rfl⟩ : ∃ n, p = n + 1 := ⟨p - 1, by omega⟩
    rw [Nat.add_sub_cancel, Int.pow_succ]; omega
  have hpos : (0 : Int) < 2 ^ (p - 1) := Int.pow_pos (by decide)
  -- the case of positive readings
  have key : ∀ q r : Int, 0 < q → q < r → r ≤ 2 ^ (p - 1) → castSeconds p 1 den q < castSeconds p 1 den r := by
    intro q r hq hqr hr
    apply Classical.byContradiction
    intro hc
    have hc' := Rat.not_lt.1 hc
    rw [C102_once_partial hp hd hd' (by omega) (by omega), C102_once_partial hp hd hd' (by omega) (by omega)] at hc'
    have hD : (0 : Rat) < den := Rat.natCast_pos.2 hd
    have hq' : (0 : Rat) < q := Rat.intCast_pos.2 hq
    have hr' : (0 : Rat) < r := Rat.intCast_pos.2 (by omega)
    have ex : (q : Rat) / den * den = q := Rat.div_mul_cancel (by grind)
    have ey : (r : Rat) / den * den = r := Rat.div_mul_cancel (by grind)
    have px := div_pos hD hq'
    have py := div_pos hD hr'
    have e1 := C102_error hp ((q : Rat) / den)
    have e2 := C102_error hp ((r : Rat) / den)
    generalize (q : Rat) / den = x at *
    generalize (r : Rat) / den = y at *
    have hxy : x < y := by
      apply lt_of_mul hD
      rw [ex, ey]
      exact Rat.intCast_lt_intCast.2 hqr
    have dx : dist x 0 = x := by unfold dist; split <;> grind
    have dy : dist y 0 = y := by unfold dist; split <;> grind
    rw [dx] at e1
    rw [dy] at e2
    have hsum : y - x ≤ dist x (round p x) + dist y (round p y) := by
      have hm := C102_mono hp (Rat.le_of_lt hxy)
      generalize round p x = a at *
      generalize round p y = b at *
      unfold dist
      split <;> split <;> grind
    have hP : (0 : Rat) ≤ ((2 ^ p : Nat) : Rat) := Rat.natCast_nonneg
    have s1 := Rat.mul_le_mul_of_nonneg_right hsum hP
    have s2 : (y - x) * ((2 ^ p : Nat) : Rat) ≤ x + y := by grind
    have s3 := Rat.mul_le_mul_of_nonneg_right s2 (Rat.le_of_lt hD)
    have s4 : ((r : Rat) - q) * ((2 ^ p : Nat) : Rat) ≤ q + r := by
      rw [← ex, ← ey]; grind
    have s5 : (r - q) * 2 ^ p ≤ q + r := by
      have : (((r - q) * 2 ^ p : Int) : Rat) ≤ ((q + r : Int) : Rat) := by
        rw [Rat.intCast_mul, Rat.intCast_sub, Rat.intCast_add]
        have : ((2 ^ p : Int) : Rat) = ((2 ^ p : Nat) : Rat) := by norm_cast
        rw [this]; exact s4
      exact Rat.intCast_le_intCast.1 this
    have s6 : 1 * 2 ^ p ≤ (r - q) * (2 : Int) ^ p := Int.mul_le_mul_of_nonneg_right (by omega) (by omega)
    omega
  have sg := fun q => C102_sign hp (num := 1) (by decide) hd q
  by_cases hq : 0 < q
  · exact key q r hq hqr h2
  · by_cases hr : r < 0
    · have := key (-r) (-q) (by omega) (by omega) (by omega)
      rw [(sg r).2.2, (sg q).2.2] at this
      grind
    · -- zero is between them
      have a : castSeconds p 1 den q ≤ castSeconds p 1 den 0 := C102_order hp (by decide) hd (by omega)
      have b : castSeconds p 1 den 0 ≤ castSeconds p 1 den r := C102_order hp (by decide) hd (by omega)
      rw [(sg 0).1] at a b
      by_cases hq0 : q = 0
      · have := (sg r).2.1 (by omega)
        grind
      · have h3 := (sg (-q)).2.1 (by omega)
        rw [(sg q).2.2] at h3
        grind

/-- C102: any reading, in a unit of `1/den` seconds: the error is at most about `2^(1-p)` times the number of seconds. -/
theorem C102_bound {den : Nat} (hd : 0 < den) (hd' : den ≤ 2 ^ p) (q : Int) :
    dist ((q : Rat) / den) (castSeconds p 1 den q) * ((2 ^ p : Nat) : Rat) * ((2 ^ p : Nat) : Rat) ≤
      dist ((q : Rat) / den) 0 * (2 * ((2 ^ p : Nat) : Rat) + 1) := by
  have hP : (0 : Rat) ≤ ((2 ^ p : Nat) : Rat) := Rat.natCast_nonneg
  have hD : (0 : Rat) < den := Rat.natCast_pos.2 hd
  have h0 := C102_error hp (q : Rat)
  simp only [castSeconds, if_true]
  split
  · rename_i h1
    subst h1
    have e : (q : Rat) / ((1 : Nat) : Rat) = q := by show (q : Rat) / 1 = q; grind
    rw [e]
    generalize ((2 ^ p : Nat) : Rat) = P at *
    have n := dist_nonneg (q : Rat) 0
    have h1 := Rat.mul_le_mul_of_nonneg_right h0 hP
    have h2 := Rat.mul_nonneg n hP
    grind
  · rw [round_nat hp hd']
    have h1 := C102_error hp (round p q / den)
    have e : dist ((q : Rat) / den) (round p q / den) * den = dist (q : Rat) (round p q) := by
      rw [← dist_mul hD, Rat.div_mul_cancel (by grind), Rat.div_mul_cancel (by grind)]
    have e0 : dist ((q : Rat) / den) 0 * den = dist (q : Rat) 0 := by
      rw [← dist_mul hD, Rat.div_mul_cancel (by grind), Rat.zero_mul]
    rw [← e, ← e0] at h0
    have h2 : dist ((q : Rat) / den) (round p q / den) * ((2 ^ p : Nat) : Rat) ≤ dist ((q : Rat) / den) 0 := by
      apply le_of_mul hD
      grind
    generalize (q : Rat) / den = x at *
    generalize round p (q : Rat) / den = y at *
    generalize ((2 ^ p : Nat) : Rat) = P at *
    have t1 := dist_triangle x y (round p y)
    have t2 := dist_triangle y x 0
    rw [dist_comm y x] at t2
    have a1 := Rat.mul_le_mul_of_nonneg_right (Rat.mul_le_mul_of_nonneg_right t1 hP) hP
    have a2 := Rat.mul_le_mul_of_nonneg_right h1 hP
    have a3 := Rat.mul_le_mul_of_nonneg_right h2 hP
    have a4 := Rat.mul_le_mul_of_nonneg_right t2 hP
    grind

end

/-- C102 for the stopwatch, for units of `1/den` seconds that are `u` nanoseconds: up to `2^p` units, `elapsed_seconds()` is the reading in seconds
(C53) rounded to the nearest number of the format. -/
theorem C102_elapsed_partial {p : Nat} (hp : 0 < p) {den u : Nat} (hu : u * den = 1000000000) (hd' : den ≤ 2 ^ p) (s : Stopwatch.St)
    {q : Int} (hq : Stopwatch.duration u s = .ok q) (h1 : -2 ^ p ≤ q) (h2 : q ≤ 2 ^ p) :
    ∃ x, Stopwatch.elapsedSeconds u s = .ok x ∧ elapsed p 1 den u s = .ok (round p x) := by
  have hd : 0 < den := by
    rcases Nat.eq_zero_or_pos den with h | h
    · subst h; simp at hu
    · exact h
  obtain ⟨x, hx, hx'⟩ := Stopwatch.C53_elapsed u s q hq
  refine ⟨x, hx, ?_⟩
  rw [elapsed, hq]
  show Res.ok _ = Res.ok _
  rw [C102_once_partial hp hd hd' h1 h2]
  congr 2
  have hD : (0 : Rat) < den := Rat.natCast_pos.2 hd
  have hU : (0 : Rat) < u := by
    refine Rat.natCast_pos.2 ?_
    rcases Nat.eq_zero_or_pos u with h | h
    · subst h; simp at hu
    · exact h
  have e : ((u : Nat) : Rat) * den = 1000000000 := by
    have : ((u * den : Nat) : Rat) = ((1000000000 : Nat) : Rat) := by rw [hu]
    rw [Rat.natCast_mul] at this
    exact this
  rw [← e] at hx'
  have e2 : x * den = q := by
    have h3 : x * den * u = q * u := by grind
    have h4 : x * den * u / u = q * u / u := by rw [h3]
    rwa [Rat.mul_div_cancel (by grind), Rat.mul_div_cancel (by grind)] at h4
  rw [← e2]
  exact Rat.mul_div_cancel (by grind)

/-- C102: if the clock never goes back, the numbers of seconds of successive clicks never decrease and are never negative. -/
theorem C102_clicks {p : Nat} (hp : 0 < p) {num den : Nat} (hn : 0 < num) (hd : 0 < den) (clock : Nat → Int)
    (hc : Stopwatch.Monotone clock) (u : Nat) (hu : 0 < u) (ops more : List Stopwatch.Op) (hm : .restart ∉ more) :
    ∃ x y, elapsed p num den u (Stopwatch.run clock ops) = .ok x ∧ elapsed p num den u (Stopwatch.run clock (ops ++ more)) = .ok y ∧
      0 ≤ x ∧ x ≤ y := by
  obtain ⟨q, r, h1, h2, h3, h4⟩ := Stopwatch.C53_monotone clock hc u hu ops more hm
  refine ⟨_, _, by rw [elapsed, h1]; rfl, by rw [elapsed, h2]; rfl, ?_, C102_order hp hn hd h4⟩
  have := C102_order hp hn hd h3
  rwa [(C102_sign hp hn hd 0).1] at this

/-- C102 is false beyond `2^53` units: the reading is rounded twice, and the result is not the `double` nearest to it; and
different readings give the same number of seconds. -/
theorem C102_twice_refuted :
    castSeconds 53 1 1000000 9007199254740993 ≠ round 53 (9007199254740993 / 1000000) ∧
    castSeconds 53 1 1000 9007199254740995 ≠ round 53 (9007199254740995 / 1000) ∧
    castSeconds 53 1 1 9007199254740993 = castSeconds 53 1 1 9007199254740992 ∧
    castSeconds 53 1 1000000 9007199254740993 = castSeconds 53 1 1000000 9007199254740992 := by decide +kernel

/-- One tenth of a second, in milliseconds, is the double 0x3FB999999999999A; a second and a half is exact. -/
example : castSeconds 53 1 1000 100 = 3602879701896397 / 2 ^ 55 ∧ castSeconds 53 1 1000 1500 = 3 / 2 ∧
    castSeconds 53 1 1000 (-1) = -(1152921504606847 / 2 ^ 60) := by decide +kernel

-- two minutes; a unit of 3/7 seconds
example : castSeconds 53 60 1 2 = 120 ∧ castSeconds 53 3 7 5 = round 53 (15 / 7) := by decide +kernel

-- ties go to the even number
example : round 3 (9 / 1) = 8 ∧ round 3 11 = 12 ∧ round 3 (-13) = -12 ∧ round 3 (1 / 3) = 5 / 16 ∧ round 3 (15 / 16) = 1 := by decide +kernel

example : Float 53 (1 / 8) ∧ Float 3 12 := ⟨⟨1, -3, by decide, by decide, by decide +kernel⟩, ⟨3, 2, by decide, by decide, by decide +kernel⟩⟩

example : let clock : Nat → Int := fun k => 700000 * k
    elapsed 53 1 1000 1000000 (Stopwatch.run clock [.click, .click, .click]) = .ok (round 53 (2 / 1000)) := by decide +kernel

end Helper.Double
