import Verif.Randomiser.Props
import Verif.Double.Props
set_option linter.unusedSectionVars false
/-!
# Property C146: real randomisers in floating point (randomiser.hpp:71, 74-77)

`C67_real_partial` assumes that `std::uniform_real_distribution` keeps its promise of values below the upper bound. Here the distribution is the one of
the usual libraries, computed with numbers of `p` bits (53 for `double`, 24 for `float`) that are rounded to nearest after every operation, as in
`Double.Model`; the bounds of the exponent are not modelled (the standard demands that `max - min` be representable).
-/
namespace Helper.Randomiser.Real
open Helper.Double

variable {E : Type}

/-- [rand.util.canonical]: how many words of the engine make one number; those of `std::mt19937` (randomiser.hpp:56) have 32 bits. -/
def calls (p : Nat) : Nat := max 1 ((p + 31) / 32)

/-- Words drawn from an engine. -/
def words (next : E → Nat × E) : Nat → E → List Nat × E
  | 0, e => ([], e)
  | n + 1, e =>
    let (g, e1) := next e
    let (gs, e2) := words next n e1
    (g :: gs, e2)

/-- The loop of `std::generate_canonical`: the words are the digits of a number, the lowest first; `t` is the weight of the next digit. -/
def loop (p : Nat) : List Nat → Rat → Rat → Rat × Rat
  | [], s, t => (s, t)
  | g :: gs, s, t => loop p gs (round p (s + round p (round p g * t))) (round p (t * (2 ^ 32 : Nat)))

/-- `std::generate_canonical<T,p>` of these words. `clip` tells whether a result of 1 is replaced by the number before it, as newer libraries do; the
standard did not say so (LWG 2524). -/
def canonical (p : Nat) (clip : Bool) (gs : List Nat) : Rat :=
  let (s, t) := loop p gs 0 1
  let r := round p (s / t)
  if clip = true ∧ 1 ≤ r then 1 - 2 ^ (-(p : Int)) else r

/-- `std::uniform_real_distribution(a,b)` of `u`: `u * (b - a) + a`. `fused` tells whether the compiler joins the product and the sum in one operation. -/
def value (p : Nat) (fused : Bool) (a b u : Rat) : Rat :=
  let w := round p (b - a)
  if fused then round p (u * w + a) else round p (round p (u * w) + a)

/-- The call of the distribution with an engine (randomiser.hpp:71). -/
def real (p : Nat) (clip fused : Bool) (next : E → Nat × E) : Dist Rat E := fun a b e =>
  let (gs, e') := words next (calls p) e
  (value p fused a b (canonical p clip gs), e')

/-! ## Lemmas on rounding -/

variable {p : Nat} (hp : 0 < p)
include hp

theorem two_np : (2 : Rat) ^ (-(p : Int)) * ((2 ^ p : Nat) : Rat) = 1 := by
  rw [← two_nat, ← two_add, Int.add_left_neg, Rat.zpow_zero]

theorem np_pos : (0 : Rat) < 2 ^ (-(p : Int)) := two_pos _

theorem np_half : (2 : Rat) ^ (-(p : Int)) ≤ 1 / 2 := by
  have h := two_mono (show -(p : Int) ≤ -1 by omega)
  have : (2 : Rat) ^ (-1 : Int) = 1 / 2 := by decide +kernel
  rw [this] at h
  exact h

/-- Two different numbers of `p` bits differ by more than the last part of the larger one. -/
theorem float_gap {x y : Rat} (hx : Float p x) (hy : Float p y) (h : x < y) (hy0 : 0 < y) : x ≤ y - y * 2 ^ (-(p : Int)) := by
  obtain ⟨k, j, k1, k2, rfl⟩ := hx
  obtain ⟨l, i, l1, l2, rfl⟩ := hy
  have e := two_np hp
  have eN := np_pos hp
  have l2' : (l : Rat) ≤ ((2 ^ p : Nat) : Rat) - 1 := by
    have := cast_le (show l ≤ ((2 ^ p : Nat) : Int) - 1 by push_cast; omega)
    rw [Rat.intCast_sub] at this
    exact this
  have k2' : (k : Rat) ≤ ((2 ^ p : Nat) : Rat) - 1 := by
    have := cast_le (show k ≤ ((2 ^ p : Nat) : Int) - 1 by push_cast; omega)
    rw [Rat.intCast_sub] at this
    exact this
  generalize hN : ((2 ^ p : Nat) : Rat) = N at *
  generalize hn : (2 : Rat) ^ (-(p : Int)) = n at *
  rcases Int.le_total i j with hij | hij
  · obtain ⟨d, rfl⟩ : ∃ d : Nat, j = i + d := ⟨(j - i).toNat, by omega⟩
    have hi := two_pos i
    rw [two_add, two_nat] at h ⊢
    have h' : (((k * (2 ^ d : Nat) : Int)) : Rat) < l := by
      apply lt_of_mul hi
      rw [Rat.intCast_mul]
      have : ((((2 ^ d : Nat) : Int)) : Rat) = ((2 ^ d : Nat) : Rat) := rfl
      grind
    have h2 : k * ((2 ^ d : Nat) : Int) + 1 ≤ l := Rat.intCast_lt_intCast.1 h'
    have h3 := cast_le h2
    rw [Rat.intCast_add, Rat.intCast_mul] at h3
    have h4 : (l : Rat) * n ≤ 1 := by
      have := Rat.mul_le_mul_of_nonneg_right l2' (Rat.le_of_lt eN)
      grind
    have h5 : ((k : Rat) * ((2 ^ d : Nat) : Rat)) ≤ l - l * n := by
      have : ((((2 ^ d : Nat) : Int)) : Rat) = ((2 ^ d : Nat) : Rat) := rfl
      have h1 : ((1 : Int) : Rat) = 1 := rfl
      grind
    have := Rat.mul_le_mul_of_nonneg_right h5 (Rat.le_of_lt hi)
    grind
  · obtain ⟨d, rfl⟩ : ∃ d : Nat, i = j + d := ⟨(i - j).toNat, by omega⟩
    have hj := two_pos j
    rw [two_add, two_nat] at h hy0 ⊢
    have ed : ((((2 ^ d : Nat) : Int)) : Rat) = ((2 ^ d : Nat) : Rat) := rfl
    have h' : (k : Rat) < ((l * (2 ^ d : Nat) : Int) : Rat) := by
      apply lt_of_mul hj
      rw [Rat.intCast_mul]
      grind
    have h2 : k + 1 ≤ l * ((2 ^ d : Nat) : Int) := Rat.intCast_lt_intCast.1 h'
    have h3 := cast_le h2
    rw [Rat.intCast_add, Rat.intCast_mul, ed] at h3
    have h1 : ((1 : Int) : Rat) = 1 := rfl
    generalize hL : (l : Rat) * ((2 ^ d : Nat) : Rat) = L at *
    have h5 : (k : Rat) ≤ L - L * n := by
      rcases Rat.le_total (a := L) (b := N) with hLN | hLN
      · have := Rat.mul_le_mul_of_nonneg_right hLN (Rat.le_of_lt eN)
        grind
      · have hn1 : n ≤ 1 / 2 := by rw [← hn]; exact np_half hp
        have := Rat.mul_le_mul_of_nonneg_right hLN (show (0 : Rat) ≤ 1 - n by grind)
        grind
    have := Rat.mul_le_mul_of_nonneg_right h5 (Rat.le_of_lt hj)
    have e5 : (l : Rat) * (2 ^ j * ((2 ^ d : Nat) : Rat)) = L * 2 ^ j := by rw [← hL]; grind
    rw [e5]
    grind

/-- What is less than a number of `p` bits by its last part is rounded to a smaller number. -/
theorem round_below {w x : Rat} (hw : Float p w) (h0 : 0 < w) (h : x ≤ w - w * 2 ^ (-(p : Int))) : round p x < w := by
  have hle : round p x ≤ w := by
    have := C102_mono hp (show x ≤ w by have := Rat.mul_pos h0 (np_pos hp); grind)
    rwa [C102_exact hp hw] at this
  rcases Rat.le_iff_lt_or_eq.1 hle with hlt | heq
  · exact hlt
  · exfalso
    have e := two_np hp
    have eN := np_pos hp
    have hu := ulp_pos hp h0
    have hw' : (nearestInt (w / ulp p w) : Rat) * ulp p w = w := by
      have := C102_exact hp hw
      rwa [round_of_pos h0, roundPos] at this
    have hs := ulp_spec hp h0
    have hm := mant_spec hp h0
    generalize nearestInt (w / ulp p w) = m at hw' hm
    generalize hU : ulp p w = U at hw' hs hu
    have e2 : (2 : Int) ^ p = 2 * 2 ^ (p - 1) := by
      rw [show p = (p - 1) + 1 by omega, Int.pow_succ]
      simp; omega
    have e2' : ((2 ^ p : Nat) : Rat) = 2 * ((2 ^ (p - 1) : Nat) : Rat) := by
      have : (2 ^ p : Nat) = 2 * 2 ^ (p - 1) := by
        rw [show p = (p - 1) + 1 by omega, Nat.pow_succ]
        simp; omega
      rw [this]; exact_mod_cast rfl
    have hpos : (0 : Int) < 2 ^ (p - 1) := Int.pow_pos (by decide)
    have hmN : m < 2 ^ p := by
      have h1 : (m : Rat) * U < ((2 ^ p : Nat) : Rat) * U := by rw [hw']; exact hs.2
      have h2 := lt_of_mul hu h1
      have h3 : (m : Rat) < (((2 ^ p : Nat) : Int) : Rat) := h2
      have := Rat.intCast_lt_intCast.1 h3
      push_cast at this
      exact this
    have near := (C102_nearest hp x).2
    rw [heq] at near
    have hxw : x < w := by have := Rat.mul_pos h0 eN; grind
    rcases Int.lt_or_le (2 ^ (p - 1)) m with hc | hc
    · -- the number before is at distance `U`
      have hf : Float p (((m - 1 : Int) : Rat) * U) := by
        refine ⟨m - 1, expo w + 1 - (p : Int), by omega, by omega, ?_⟩
        rw [← hU, ulp]
      have hc' : ((2 ^ (p - 1) : Nat) : Rat) + 1 ≤ m := by
        have := cast_le (show (((2 ^ (p - 1) : Nat) : Int) + 1) ≤ m by push_cast; omega)
        rw [Rat.intCast_add] at this
        exact this
      have hn := near _ hf
      rw [Rat.intCast_sub] at hn
      have h1 : ((1 : Int) : Rat) = 1 := rfl
      have hwn : U / 2 < w * 2 ^ (-(p : Int)) := by
        rw [← hw']
        have : (1 : Rat) / 2 < m * 2 ^ (-(p : Int)) := by
          have := Rat.mul_le_mul_of_nonneg_right hc' (Rat.le_of_lt eN)
          rw [e2'] at e
          clear hn hf near
          generalize (2 : Rat) ^ (-(p : Int)) = n at *
          generalize ((2 ^ (p - 1) : Nat) : Rat) = M at *
          grind
        have := Rat.mul_lt_mul_of_pos_right this hu
        grind
      have hy : ((m : Rat) - 1) * U = w - U := by grind
      rw [h1, hy] at hn
      unfold dist at hn
      split at hn <;> split at hn <;> grind
    · have hm' : m = 2 ^ (p - 1) := by omega
      have hf : Float p (w - w * 2 ^ (-(p : Int))) := by
        refine ⟨2 * m - 1, expo w + 1 - (p : Int) - 1, by omega, by omega, ?_⟩
        have e3 : (2 : Rat) ^ (expo w + 1 - (p : Int) - 1) = U / 2 := by
          have := two_succ (expo w + 1 - (p : Int) - 1)
          rw [show expo w + 1 - (p : Int) - 1 + 1 = expo w + 1 - (p : Int) by omega] at this
          rw [ulp] at hU
          grind
        rw [e3, Rat.intCast_sub, Rat.intCast_mul, ← hw']
        have hmr : (m : Rat) = ((2 ^ (p - 1) : Nat) : Rat) := by
          have : m = ((2 ^ (p - 1) : Nat) : Int) := by rw [hm']; push_cast; rfl
          rw [this]; rfl
        have h1 : ((1 : Int) : Rat) = 1 := rfl
        have h2 : ((2 : Int) : Rat) = 2 := rfl
        rw [e2'] at e
        rw [hmr, h1, h2]
        clear near hs hm hmr
        generalize (2 : Rat) ^ (-(p : Int)) = n at *
        generalize ((2 ^ (p - 1) : Nat) : Rat) = M at *
        grind
      have := C102_mono hp h
      rw [C102_exact hp hf, heq] at this
      have := Rat.mul_pos h0 eN
      grind

omit hp in
theorem rmul {a b c : Rat} (h : a ≤ b) (hc : 0 ≤ c) : a * c ≤ b * c := Rat.mul_le_mul_of_nonneg_right h hc

theorem round_zero : round p 0 = 0 := C102_exact hp (float_zero p)

theorem round_nonneg {x : Rat} (h : 0 ≤ x) : 0 ≤ round p x := by
  have := C102_mono hp h
  rwa [round_zero hp] at this

theorem float_one : Float p 1 := by
  have h : (0 : Int) < 2 ^ p := Int.pow_pos (by decide)
  exact float_int hp (k := 1) (by omega) (by omega)

/-- The part of the width that is added to the lower bound is no larger than the exact width. -/
theorem part_le {x u : Rat} (hx : 0 < x) (h1 : u ≤ 1 - 2 ^ (-(p : Int))) :
    u * round p x ≤ x ∧ round p (u * round p x) ≤ x := by
  have hR := round_pos hp hx
  have hu : u * round p x ≤ round p x - round p x * 2 ^ (-(p : Int)) := by
    have := rmul h1 (Rat.le_of_lt hR)
    grind
  have hF := C102_nearest hp x
  refine ⟨?_, ?_⟩
  · rcases Rat.le_total (a := round p x) (b := x) with h | h
    · have := Rat.mul_pos hR (np_pos hp); grind
    · have e := C102_error hp x
      have e1 : dist x (round p x) = round p x - x := if_pos h
      have e2 : dist x 0 = x := by unfold dist; split <;> grind
      rw [e1, e2] at e
      have e3 := rmul e (Rat.le_of_lt (np_pos hp))
      have e4 := two_np hp
      have e5 := rmul h (Rat.le_of_lt (np_pos hp))
      generalize (2 : Rat) ^ (-(p : Int)) = n at *
      generalize ((2 ^ p : Nat) : Rat) = N at *
      have e6 : (round p x - x) * N * n = round p x - x := by rw [Rat.mul_assoc, Rat.mul_comm N, e4]; grind
      grind
  · have hlt := round_below hp hF.1 hR hu
    apply Classical.byContradiction
    intro hc
    have hc := Rat.not_le.1 hc
    have := hF.2 _ (C102_nearest hp (u * round p x)).1
    unfold dist at this
    split at this <;> split at this <;> grind

/-! ## C146 -/

/-- C146: a value is never outside of the closed interval, if `u` is at most the number before 1. -/
theorem C146_between_partial (fused : Bool) {a b u : Rat} (ha : Float p a) (hb : Float p b) (hab : a ≤ b) (h0 : 0 ≤ u)
    (h1 : u ≤ 1 - 2 ^ (-(p : Int))) : a ≤ value p fused a b u ∧ value p fused a b u ≤ b := by
  have key : ∀ y, 0 ≤ y → y ≤ b - a → a ≤ round p (y + a) ∧ round p (y + a) ≤ b := by
    intro y hy hy'
    have l := C102_mono hp (show a ≤ y + a by grind)
    have r := C102_mono hp (show y + a ≤ b by grind)
    rw [C102_exact hp ha] at l
    rw [C102_exact hp hb] at r
    exact ⟨l, r⟩
  have hw : 0 ≤ round p (b - a) := round_nonneg hp (by grind)
  have hn : 0 ≤ u * round p (b - a) := Rat.mul_nonneg h0 hw
  have hle : u * round p (b - a) ≤ b - a ∧ round p (u * round p (b - a)) ≤ b - a := by
    by_cases h : 0 < b - a
    · exact part_le hp h h1
    · have : b - a = 0 := by grind
      rw [this, round_zero hp, Rat.mul_zero, round_zero hp]
      exact ⟨Rat.le_refl, Rat.le_refl⟩
  cases fused
  · exact key _ (round_nonneg hp hn) hle.2
  · exact key _ hn hle.1

/-- C146: values grow with `u`. -/
theorem C146_mono (fused : Bool) {a b u v : Rat} (hab : a ≤ b) (h : u ≤ v) : value p fused a b u ≤ value p fused a b v := by
  have hw : 0 ≤ round p (b - a) := round_nonneg hp (by grind)
  have hm := rmul h hw
  cases fused
  · exact C102_mono hp (by have := C102_mono hp hm; grind)
  · exact C102_mono hp (by grind)

/-- C146: the upper bound is excluded iff the value of the last number before 1 is below it. -/
theorem C146_excluded_iff (fused : Bool) {a b : Rat} (hab : a ≤ b) :
    (∀ u, 0 ≤ u → u ≤ 1 - 2 ^ (-(p : Int)) → value p fused a b u < b) ↔ value p fused a b (1 - 2 ^ (-(p : Int))) < b := by
  have hh := np_half hp
  constructor
  · intro h
    exact h _ (by grind) Rat.le_refl
  · intro h u _ h1
    have := C146_mono hp fused hab h1
    grind

/-- C146: the upper bound is excluded if the interval contains zero and its width is representable, as for `(0,b)` and `(-b,b)`. -/
theorem C146_excluded_partial (fused : Bool) {a b u : Rat} (hb : Float p b) (hab : a < b)
    (h1 : u ≤ 1 - 2 ^ (-(p : Int))) (ha0 : a ≤ 0) (hb0 : 0 ≤ b) (hw : Float p (b - a)) : value p fused a b u < b := by
  have hx : 0 < b - a := by grind
  have eN := np_pos hp
  have e : round p (b - a) = b - a := C102_exact hp hw
  have key : ∀ y, y ≤ (b - a) - (b - a) * 2 ^ (-(p : Int)) → round p (y + a) < b := by
    intro y hy
    have hwn := rmul (show b ≤ b - a by grind) (Rat.le_of_lt eN)
    by_cases hb' : 0 < b
    · exact round_below hp hb hb' (by grind)
    · have hb1 : b = 0 := by grind
      subst hb1
      have : 0 < -(y + a) := by have := Rat.mul_pos hx eN; grind
      have := round_pos hp this
      rw [round_neg] at this
      grind
  have hu : u * (b - a) ≤ (b - a) - (b - a) * 2 ^ (-(p : Int)) := by
    have := rmul h1 (Rat.le_of_lt hx)
    grind
  unfold value
  simp only [e]
  cases fused
  · have hlt := round_below hp hw hx hu
    exact key _ (float_gap hp (C102_nearest hp _).1 hw hlt hx)
  · exact key _ hu

/-- C146: the lower bound is the value of 0. -/
theorem C146_min (fused : Bool) {a b : Rat} (ha : Float p a) : value p fused a b 0 = a := by
  unfold value
  cases fused <;> simp [Rat.zero_mul, round_zero hp, Rat.zero_add, C102_exact hp ha]

omit hp in
theorem words_spec (next : E → Nat × E) (hg : ∀ e, (next e).1 < 2 ^ 32) : ∀ (n : Nat) (e : E),
    (words next n e).1.length = n ∧ ∀ g ∈ (words next n e).1, g < 2 ^ 32 := by
  intro n
  induction n with
  | zero => intro e; exact ⟨rfl, fun g h => by cases h⟩
  | succ n ih =>
    intro e
    obtain ⟨h1, h2⟩ := ih (next e).2
    refine ⟨by simp [words, h1], fun g h => ?_⟩
    simp only [words, List.mem_cons] at h
    rcases h with rfl | h
    · exact hg e
    · exact h2 g h

theorem float_nat (n g : Nat) (hg : g < 2 ^ p) : Float p ((g : Rat) * ((2 ^ n : Nat) : Rat)) := by
  have h1 : (g : Int) < 2 ^ p := by exact_mod_cast hg
  refine ⟨g, n, by omega, h1, ?_⟩
  rw [two_nat]
  rfl

theorem float_two (n : Nat) : Float p ((2 ^ n : Nat) : Rat) := by
  have h := float_nat hp n 1 (Nat.one_lt_two_pow (by omega))
  have h1 : ((1 : Nat) : Rat) = 1 := rfl
  rwa [h1, Rat.one_mul] at h

/-- With 32 bits or more every word is represented, and the digits give a number below the weight of the next one. -/
theorem loop_spec (h32 : 32 ≤ p) : ∀ (gs : List Nat) (s : Rat) (n : Nat), (∀ g ∈ gs, g < 2 ^ 32) → 0 ≤ s → s ≤ ((2 ^ n : Nat) : Rat) →
    (loop p gs s ((2 ^ n : Nat) : Rat)).2 = ((2 ^ (n + 32 * gs.length) : Nat) : Rat) ∧
    0 ≤ (loop p gs s ((2 ^ n : Nat) : Rat)).1 ∧ (loop p gs s ((2 ^ n : Nat) : Rat)).1 ≤ (loop p gs s ((2 ^ n : Nat) : Rat)).2 := by
  intro gs
  induction gs with
  | nil => intro s n _ h0 h1; exact ⟨rfl, h0, h1⟩
  | cons g gs ih =>
    intro s n hg h0 h1
    have hg1 : g < 2 ^ 32 := hg g (by simp)
    have hgp : g < 2 ^ p := Nat.lt_of_lt_of_le hg1 (Nat.pow_le_pow_right (by decide) h32)
    have et : ((2 ^ n : Nat) : Rat) * ((2 ^ 32 : Nat) : Rat) = ((2 ^ (n + 32) : Nat) : Rat) := by
      rw [Nat.pow_add]; exact_mod_cast rfl
    have er : round p (((2 ^ n : Nat) : Rat) * ((2 ^ 32 : Nat) : Rat)) = ((2 ^ (n + 32) : Nat) : Rat) := by
      rw [et]; exact C102_exact hp (float_two hp _)
    have eg : round p (round p (g : Rat) * ((2 ^ n : Nat) : Rat)) = (g : Rat) * ((2 ^ n : Nat) : Rat) := by
      rw [round_nat hp (Nat.le_of_lt hgp)]
      exact C102_exact hp (float_nat hp n g hgp)
    have hT : (0 : Rat) ≤ ((2 ^ n : Nat) : Rat) := by exact_mod_cast Nat.zero_le _
    have hG : (0 : Rat) ≤ (g : Rat) := by exact_mod_cast Nat.zero_le _
    have hG' : (g : Rat) + 1 ≤ ((2 ^ 32 : Nat) : Rat) := by exact_mod_cast hg1
    have hle : s + (g : Rat) * ((2 ^ n : Nat) : Rat) ≤ ((2 ^ (n + 32) : Nat) : Rat) := by
      rw [← et]
      have := rmul hG' hT
      generalize ((2 ^ n : Nat) : Rat) = T at *
      generalize ((2 ^ 32 : Nat) : Rat) = K at *
      grind
    have hge : 0 ≤ s + (g : Rat) * ((2 ^ n : Nat) : Rat) := by
      have := Rat.mul_nonneg hG hT
      grind
    have hle' := C102_mono hp hle
    rw [C102_exact hp (float_two hp _)] at hle'
    have := ih (round p (s + (g : Rat) * ((2 ^ n : Nat) : Rat))) (n + 32) (fun g' h => hg g' (List.mem_cons_of_mem _ h)) (round_nonneg hp hge) hle'
    rw [loop, er, eg]
    rw [show n + 32 * (g :: gs).length = n + 32 + 32 * gs.length by simp; omega]
    exact this

/-- With fewer bits one word is drawn. -/
theorem loop_one {g : Nat} (hg : g < 2 ^ 32) : (loop p [g] 0 1).2 = ((2 ^ 32 : Nat) : Rat) ∧
    0 ≤ (loop p [g] 0 1).1 ∧ (loop p [g] 0 1).1 ≤ (loop p [g] 0 1).2 := by
  have e : round p ((2 ^ 32 : Nat) : Rat) = ((2 ^ 32 : Nat) : Rat) := C102_exact hp (float_two hp 32)
  have hG : (0 : Rat) ≤ (g : Rat) := by exact_mod_cast Nat.zero_le _
  have hG' : (g : Rat) ≤ ((2 ^ 32 : Nat) : Rat) := by exact_mod_cast Nat.le_of_lt hg
  have h1 := C102_mono hp hG'
  rw [e] at h1
  have e1 : round p (round p (g : Rat)) = round p (g : Rat) := C102_exact hp (C102_nearest hp _).1
  have h0 := round_nonneg hp hG
  simp only [loop, Rat.mul_one, Rat.one_mul, Rat.zero_add, e, e1]
  exact ⟨trivial, h0, h1⟩

theorem loop_words {gs : List Nat} (hl : gs.length = calls p) (hg : ∀ g ∈ gs, g < 2 ^ 32) :
    0 < (loop p gs 0 1).2 ∧ 0 ≤ (loop p gs 0 1).1 ∧ (loop p gs 0 1).1 ≤ (loop p gs 0 1).2 := by
  by_cases h32 : 32 ≤ p
  · have := loop_spec hp h32 gs 0 0 hg Rat.le_refl (by decide +kernel)
    refine ⟨?_, this.2⟩
    rw [show (1 : Rat) = ((2 ^ 0 : Nat) : Rat) from rfl, this.1]
    exact_mod_cast Nat.two_pow_pos _
  · have h1 : calls p = 1 := by unfold calls; omega
    rw [h1] at hl
    match gs, hl with
    | [g], _ =>
      have := loop_one hp (hg g (by simp))
      refine ⟨?_, this.2⟩
      rw [this.1]
      decide +kernel

/-- C146: the number made of the words of the engine is in `[0,1]`; it is representable, and at most the number before 1 if the library sees to it. -/
theorem C146_unit (clip : Bool) {gs : List Nat} (hl : gs.length = calls p) (hg : ∀ g ∈ gs, g < 2 ^ 32) :
    0 ≤ canonical p clip gs ∧ canonical p clip gs ≤ 1 ∧ (clip = true → canonical p clip gs ≤ 1 - 2 ^ (-(p : Int))) := by
  obtain ⟨ht, hs, hst⟩ := loop_words hp hl hg
  have hh := np_half hp
  have hn := np_pos hp
  have h0 : 0 ≤ (loop p gs 0 1).1 / (loop p gs 0 1).2 := by
    have := div_mono ht hs
    rwa [show (0 : Rat) / (loop p gs 0 1).2 = 0 by rw [Rat.div_def, Rat.zero_mul]] at this
  have h1 : (loop p gs 0 1).1 / (loop p gs 0 1).2 ≤ 1 := by
    have := div_mono ht hst
    rwa [show (loop p gs 0 1).2 / (loop p gs 0 1).2 = 1 by rw [Rat.div_def, Rat.mul_inv_cancel _ (by grind)]] at this
  have r0 := round_nonneg hp h0
  have r1 := C102_mono hp h1
  rw [C102_exact hp (float_one hp)] at r1
  have hF := (C102_nearest hp ((loop p gs 0 1).1 / (loop p gs 0 1).2)).1
  simp only [canonical]
  split
  · exact ⟨by grind, by grind, fun _ => Rat.le_refl⟩
  · rename_i hc
    refine ⟨r0, r1, fun hcl => ?_⟩
    have hlt : round p ((loop p gs 0 1).1 / (loop p gs 0 1).2) < 1 := Rat.not_le.1 fun h => hc ⟨hcl, h⟩
    have := float_gap hp hF (float_one hp) hlt (by decide)
    rwa [Rat.one_mul] at this

theorem float_before_one : Float p (1 - 2 ^ (-(p : Int))) := by
  have h : (0 : Int) < 2 ^ p := Int.pow_pos (by decide)
  refine ⟨2 ^ p - 1, -(p : Int), by omega, by omega, ?_⟩
  have e := two_np hp
  have e1 : ((2 ^ p - 1 : Int) : Rat) = ((2 ^ p : Nat) : Rat) - 1 := by
    rw [Rat.intCast_sub, show (2 ^ p : Int) = ((2 ^ p : Nat) : Int) by push_cast; rfl]
    rfl
  rw [e1]
  generalize ((2 ^ p : Nat) : Rat) = N at *
  generalize (2 : Rat) ^ (-(p : Int)) = n at *
  grind

/-- C146: libraries that avoid 1 differ from the others for the words that give 1 only, and take the last number before it. -/
theorem C146_clip {gs : List Nat} (hl : gs.length = calls p) (hg : ∀ g ∈ gs, g < 2 ^ 32) :
    (canonical p false gs = 1 → canonical p true gs = 1 - 2 ^ (-(p : Int))) ∧
    (canonical p false gs ≠ 1 → canonical p true gs = canonical p false gs) := by
  have h1 := (C146_unit hp false hl hg).2.1
  have e : canonical p true gs = if 1 ≤ canonical p false gs then 1 - 2 ^ (-(p : Int)) else canonical p false gs := by simp [canonical]
  rw [e]
  constructor
  · intro h; rw [if_pos (by rw [h]; exact Rat.le_refl)]
  · intro h; rw [if_neg (by grind)]

/-- C146: all numbers that occur are numbers of the type. -/
theorem C146_float (clip fused : Bool) (gs : List Nat) (a b u : Rat) : Float p (canonical p clip gs) ∧ Float p (value p fused a b u) := by
  constructor
  · simp only [canonical]
    split
    · exact float_before_one hp
    · exact (C102_nearest hp _).1
  · unfold value
    cases fused
    · exact (C102_nearest hp _).1
    · exact (C102_nearest hp _).1

/-- C146: in a library that avoids 1, all draws of a program, on any randomisers and engines, give values in the closed intervals. -/
theorem C146_draws_partial (fused : Bool) (next : E → Nat × E) (hg : ∀ e, (next e).1 < 2 ^ 32) (pick : Nat → Nat)
    (rs : List (Nat × Randomiser Rat)) (hr : ∀ x ∈ rs, Float p x.2.min ∧ Float p x.2.max ∧ x.2.min ≤ x.2.max) (es : Nat → E) :
    (draws (real p true fused next) pick rs es).1.length = rs.length ∧
    ∀ (i u : Nat) (r : Randomiser Rat) (v : Rat), rs[i]? = some (u, r) → (draws (real p true fused next) pick rs es).1[i]? = some v →
      r.min ≤ v ∧ v ≤ r.max := by
  obtain ⟨h1, h2⟩ := draws_mem (real p true fused next) pick (fun a b v => Float p a → Float p b → a ≤ b → a ≤ v ∧ v ≤ b)
    (fun a b e ha hb hab => by
      obtain ⟨w1, w2⟩ := words_spec next hg (calls p) e
      have hc := C146_unit hp true w1 w2
      exact C146_between_partial hp fused ha hb hab hc.1 (hc.2.2 rfl)) rs es
  refine ⟨h1, fun i u r v hi hv => ?_⟩
  obtain ⟨a, b, c⟩ := hr _ (List.mem_of_getElem? hi)
  exact h2 i u r v hi hv a b c

/-- C146: the same with the upper bound excluded, for intervals that contain zero and have a representable width. -/
theorem C146_draws_excluded_partial (fused : Bool) (next : E → Nat × E) (hg : ∀ e, (next e).1 < 2 ^ 32) (pick : Nat → Nat)
    (rs : List (Nat × Randomiser Rat))
    (hr : ∀ x ∈ rs, Float p x.2.min ∧ Float p x.2.max ∧ Float p (x.2.max - x.2.min) ∧ x.2.min < x.2.max ∧ x.2.min ≤ 0 ∧ 0 ≤ x.2.max) (es : Nat → E)
    (i u : Nat) (r : Randomiser Rat) (v : Rat) (hi : rs[i]? = some (u, r)) (hv : (draws (real p true fused next) pick rs es).1[i]? = some v) :
    r.min ≤ v ∧ v < r.max := by
  obtain ⟨_, h2⟩ := draws_mem (real p true fused next) pick
    (fun a b v => Float p a → Float p b → Float p (b - a) → a < b → a ≤ 0 → 0 ≤ b → a ≤ v ∧ v < b)
    (fun a b e ha hb hw hab ha0 hb0 => by
      obtain ⟨w1, w2⟩ := words_spec next hg (calls p) e
      have hc := C146_unit hp true w1 w2
      exact ⟨(C146_between_partial hp fused ha hb (Rat.le_of_lt hab) hc.1 (hc.2.2 rfl)).1,
        C146_excluded_partial hp fused hb hab (hc.2.2 rfl) ha0 hb0 hw⟩) rs es
  obtain ⟨a, b, c, d, e, f⟩ := hr _ (List.mem_of_getElem? hi)
  exact h2 i u r v hi hv a b c d e f

omit hp in
/-- C146: a draw takes two words of the engine for `double` and one for `float`. -/
theorem C146_words (clip fused : Bool) (next : E → Nat × E) (a b : Rat) (e : E) :
    (real 53 clip fused next a b e).2 = (next (next e).2).2 ∧ (real 24 clip fused next a b e).2 = (next e).2 := ⟨rfl, rfl⟩

end Helper.Randomiser.Real
