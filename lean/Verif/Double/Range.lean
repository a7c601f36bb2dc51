import Verif.Double.Numerals
import Verif.Seq.Total
set_option linter.unusedSectionVars false
/-!
# Property C129: vectors of `double` with the bounds of the type

`Double.Text` leaves out the bounds of the exponent, the sign of zero, infinities and NaN. Here all values of the type are modelled: the reader and
writer of an element (container.hpp:127-135 `os << x`, stlio.hpp:144-190 `is >> x`) are `std::num_put` and `std::num_get`, which are trusted.
-/
namespace Helper.Double
open IStream OStream Helper.Seq

/-- A binary format: `p` bits, multiples of `2^lo`, below `2^hi` (IEEE 754). -/
structure Format where
  p : Nat
  lo : Int
  hi : Int

/-- `double`. -/
def binary64 : Format := ⟨53, -1074, 1024⟩

/-- A value of the type: a sign and a size, an infinity or a NaN. -/
inductive Val where
  | fin (neg : Bool) (x : Rat)
  | inf (neg : Bool)
  | nan (neg : Bool)
  deriving DecidableEq

/-- The distance of neighbours near `x > 0`: that of `ulp`, but no less than `2^lo`. -/
def quantum (F : Format) (x : Rat) : Rat := (2 : Rat) ^ (max (expo x + 1 - (F.p : Int)) F.lo)

/-- The number nearest to `x ≥ 0`, if there were no largest one. -/
def near (F : Format) (x : Rat) : Rat := if x = 0 then 0 else (nearestInt (x / quantum F x) : Rat) * quantum F x

/-- The largest number. -/
def largest (F : Format) : Rat := ((2 ^ F.p - 1 : Nat) : Rat) * 2 ^ (F.hi - F.p)

/-- The sign. -/
def signOf (neg : Bool) : List Char := if neg then ['-'] else []

/-- `%g` of a value ([facet.num.put.virtuals], C 7.21.6.1). -/
def Val.text (dp : Char) (P : Nat) : Val → List Char
  | .fin neg x => signOf neg ++ Double.text dp P x
  | .inf neg => signOf neg ++ "inf".toList
  | .nan neg => signOf neg ++ "nan".toList

/-- `os << x`. -/
def Val.put (dp : Char) (P : Nat) (os : OStream) (x : Val) : OStream := os.put (x.text dp P)

/-- The size of a number. -/
def size (v : Rat) : Rat := if v < 0 then -v else v

/-- `std::num_get` for `double` ([facet.num.get.virtuals]): 0 and failbit if the field is no number, the largest number with its sign and failbit if
the number is too large for the type. A number that is too small is rounded to a multiple of the smallest one, which is not an error, as in libstdc++
(libc++ sets failbit if `strtod` reports ERANGE). `inf` and `nan` are no fields: `i` and `n` are not among the characters that the standard lets a
number have (libc++ accepts them). -/
def Val.extract (dp : Char) (F : Format) (s : IStream) : Val × IStream :=
  let f := field dp s.rest
  let s' := { s with before := (s.rest.take (s.rest.length - f.rest.length)).reverse ++ s.before, rest := f.rest,
                     eof := s.eof || f.rest.isEmpty }
  let neg := decide (f.sign = ['-'])
  match f.value with
  | none => (.fin false 0, { s' with fail := true })
  | some v =>
    if (2 : Rat) ^ F.hi ≤ near F (size v) then (.fin neg (largest F), { s' with fail := true })
    else (.fin neg (near F (size v)), s')

/-- `is >> x`. -/
def Val.read (dp : Char) (F : Format) (s : IStream) (x : Val) : Val × IStream :=
  let r := s.sentry false
  if r.1 then Val.extract dp F r.2 else (x, r.2)

/-! ## Specification -/

/-- A multiple of `2^lo` with at most `p` bits. -/
def Grid (F : Format) (y : Rat) : Prop := ∃ (k : Nat) (j : Int), k < 2 ^ F.p ∧ F.lo ≤ j ∧ y = (k : Rat) * 2 ^ j

/-- A value of the type. -/
def Valid (F : Format) : Val → Prop
  | .fin _ x => Grid F x ∧ x ≤ largest F
  | _ => True

/-- What is read when a value has been written, if anything. -/
def backV (F : Format) (P : Nat) : Val → Option Val
  | .fin neg x => if (2 : Rat) ^ F.hi ≤ near F (written P x) then none else some (.fin neg (near F (written P x)))
  | _ => none

/-! ## Rounding -/

variable {F : Format}

theorem quantum_pos (x : Rat) : 0 < quantum F x := two_pos _

theorem near_zero : near F 0 = 0 := if_pos rfl

theorem near_pos_eq {x : Rat} (hx : 0 < x) : near F x = (nearestInt (x / quantum F x) : Rat) * quantum F x := if_neg (by grind)

theorem near_normal {x : Rat} (hx : 0 < x) (h : F.lo ≤ expo x + 1 - (F.p : Int)) : near F x = roundPos F.p x := by
  have e : quantum F x = ulp F.p x := by rw [quantum, ulp, Int.max_eq_left h]
  rw [near_pos_eq hx, e, roundPos]

theorem quantum_low {x : Rat} (h : expo x + 1 - (F.p : Int) ≤ F.lo) : quantum F x = 2 ^ F.lo := by
  rw [quantum, Int.max_eq_right h]

theorem div_quantum (x : Rat) : x / quantum F x * quantum F x = x := Rat.div_mul_cancel (by have := quantum_pos (F := F) x; grind)

/-- Numbers of the grid are multiples of `2^lo`. -/
theorem grid_multiple {y : Rat} (h : Grid F y) : ∃ K : Nat, y = (K : Rat) * 2 ^ F.lo := by
  obtain ⟨k, j, _, hj, rfl⟩ := h
  obtain ⟨n, hn⟩ : ∃ n : Nat, j = n + F.lo := ⟨(j - F.lo).toNat, by omega⟩
  refine ⟨k * 2 ^ n, ?_⟩
  rw [hn, two_add, two_nat, Rat.natCast_mul]
  grind

theorem grid_float {y : Rat} (h : Grid F y) : Float F.p y := by
  obtain ⟨k, j, hk, _, rfl⟩ := h
  have : (k : Int) < 2 ^ F.p := by exact_mod_cast hk
  have hpos : (0 : Int) < 2 ^ F.p := Int.pow_pos (by decide)
  exact ⟨k, j, by omega, this, by rw [Rat.intCast_natCast]⟩

theorem grid_nonneg {y : Rat} (h : Grid F y) : 0 ≤ y := by
  obtain ⟨k, j, _, _, rfl⟩ := h
  exact Rat.mul_nonneg Rat.natCast_nonneg (Rat.le_of_lt (two_pos j))

/-- C129: reading gives the nearest number of the grid. -/
theorem C129_nearest (hp : 0 < F.p) {x : Rat} (hx : 0 ≤ x) {y : Rat} (hy : Grid F y) : dist x (near F x) ≤ dist x y := by
  by_cases h0 : x = 0
  · subst h0
    rw [near_zero]
    have := dist_nonneg 0 y
    have e : dist 0 0 = 0 := by decide +kernel
    rw [e]; exact this
  have hx : 0 < x := by grind
  by_cases h : F.lo ≤ expo x + 1 - (F.p : Int)
  · rw [near_normal hx h]
    exact roundPos_nearest hp hx (grid_float hy)
  · obtain ⟨K, rfl⟩ := grid_multiple hy
    have hq := quantum_low (F := F) (x := x) (by omega)
    have hu := quantum_pos (F := F) x
    have h := Rat.mul_le_mul_of_nonneg_right (nearestInt_le (x / quantum F x) K) (Rat.le_of_lt hu)
    rw [← dist_mul hu, ← dist_mul hu, div_quantum, ← near_pos_eq hx, hq, Rat.intCast_natCast] at h
    exact h

theorem near_nonneg {x : Rat} (hx : 0 ≤ x) : 0 ≤ near F x := by
  by_cases h0 : x = 0
  · subst h0; rw [near_zero]; exact Rat.le_refl
  have hx : 0 < x := by grind
  rw [near_pos_eq hx]
  refine Rat.mul_nonneg ?_ (Rat.le_of_lt (quantum_pos x))
  have : (0 : Int) ≤ nearestInt (x / quantum F x) := nearestInt_ge (Rat.le_of_lt (div_pos (quantum_pos x) hx))
  exact_mod_cast this

/-- C129: what is read is on the grid. -/
theorem C129_grid (hp : 0 < F.p) {x : Rat} (hx : 0 ≤ x) : Grid F (near F x) := by
  have hpow : 0 < 2 ^ F.p := Nat.pow_pos (n := F.p) (by decide : 0 < 2)
  by_cases h0 : x = 0
  · subst h0; rw [near_zero]
    exact ⟨0, F.lo, hpow, Int.le_refl _, by simp⟩
  have hx : 0 < x := by grind
  have hnn := near_nonneg (F := F) (Rat.le_of_lt hx)
  have hk0 : (0 : Int) ≤ nearestInt (x / quantum F x) := nearestInt_ge (Rat.le_of_lt (div_pos (quantum_pos x) hx))
  obtain ⟨k, hk⟩ : ∃ k : Nat, nearestInt (x / quantum F x) = k := ⟨(nearestInt (x / quantum F x)).toNat, by omega⟩
  have hle : nearestInt (x / quantum F x) ≤ 2 ^ F.p := by
    apply nearestInt_le_of
    apply le_of_mul (quantum_pos (F := F) x)
    rw [div_quantum]
    have h1 := (expo_spec hx).2
    have h2 : ((2 ^ F.p : Int) : Rat) * quantum F x = 2 ^ ((F.p : Int) + max (expo x + 1 - (F.p : Int)) F.lo) := by
      rw [two_add, two_nat, quantum]
      have : ((2 ^ F.p : Int) : Rat) = ((2 ^ F.p : Nat) : Rat) := by norm_cast
      rw [this]
    rw [h2]
    have h3 := two_mono (show expo x + 1 ≤ (F.p : Int) + max (expo x + 1 - (F.p : Int)) F.lo by omega)
    grind
  rw [near_pos_eq hx, hk]
  rw [hk] at hle
  have hle' : k ≤ 2 ^ F.p := by exact_mod_cast hle
  by_cases he : k = 2 ^ F.p
  · refine ⟨2 ^ (F.p - 1), max (expo x + 1 - (F.p : Int)) F.lo + 1, Nat.pow_lt_pow_right (by decide) (by omega), by omega, ?_⟩
    rw [he, Rat.intCast_natCast, two_succ, quantum]
    have e : (2 : Nat) ^ F.p = 2 ^ (F.p - 1) * 2 := by rw [← Nat.pow_succ]; congr 1; omega
    rw [e, Rat.natCast_mul]
    have : ((2 : Nat) : Rat) = 2 := rfl
    rw [this]
    grind
  · exact ⟨k, max (expo x + 1 - (F.p : Int)) F.lo, by omega, by omega, by rw [Rat.intCast_natCast, quantum]⟩

theorem near_mono (hp : 0 < F.p) {x y : Rat} (hx : 0 ≤ x) (h : x ≤ y) : near F x ≤ near F y := by
  apply Classical.byContradiction
  intro hc
  have hc := Rat.not_le.1 hc
  by_cases e : x = y
  · subst e; exact absurd hc (by grind)
  have h1 := C129_nearest hp hx (C129_grid hp (show 0 ≤ y by grind))
  have h2 := C129_nearest hp (show 0 ≤ y by grind) (C129_grid hp hx)
  unfold dist at h1 h2
  grind

theorem near_grid (hp : 0 < F.p) {x : Rat} (h : Grid F x) : near F x = x := by
  have := C129_nearest hp (grid_nonneg h) h
  have e : dist x x = 0 := by unfold dist; split <;> grind
  rw [e] at this
  exact (eq_of_dist this).symm

/-! ## The end of the range -/

theorem grid_largest (h : F.lo + F.p ≤ F.hi) : Grid F (largest F) :=
  ⟨2 ^ F.p - 1, F.hi - F.p, by have := Nat.pow_pos (n := F.p) (by decide : 0 < 2); omega, by omega, rfl⟩

theorem largest_eq : largest F = 2 ^ F.hi - 2 ^ (F.hi - F.p) := by
  have e : (2 : Rat) ^ F.hi = 2 ^ (F.p : Int) * 2 ^ (F.hi - F.p) := by rw [← two_add]; congr 1; omega
  have hp := Nat.pow_pos (n := F.p) (by decide : 0 < 2)
  rw [largest, e, two_nat]
  have : ((2 ^ F.p - 1 : Nat) : Rat) = ((2 ^ F.p : Nat) : Rat) - 1 := by
    have : (2 ^ F.p - 1) + 1 = 2 ^ F.p := by omega
    have h := congrArg (fun n : Nat => (n : Rat)) this
    simp only [Rat.natCast_add] at h
    have e1 : ((1 : Nat) : Rat) = 1 := rfl
    rw [e1] at h
    grind
  rw [this]; grind

theorem grid_top (hp : 0 < F.p) (h : F.lo + F.p ≤ F.hi) : Grid F (2 ^ F.hi) := by
  refine ⟨1, F.hi, Nat.one_lt_two_pow (by omega), by omega, ?_⟩
  have : ((1 : Nat) : Rat) = 1 := rfl
  rw [this, Rat.one_mul]

/-- Where numbers begin to be too large: half a unit above the largest one. -/
def limit (F : Format) : Rat := 2 ^ F.hi - 2 ^ (F.hi - F.p - 1)

/-- C129: a number is too large for the type exactly if it is not below the largest one by half a unit or more. -/
theorem C129_limit (hp : 0 < F.p) (hF : F.lo + F.p ≤ F.hi) {x : Rat} (hx : 0 ≤ x) : (2 : Rat) ^ F.hi ≤ near F x ↔ limit F ≤ x := by
  have hhalf : (2 : Rat) ^ (F.hi - F.p) = 2 * 2 ^ (F.hi - F.p - 1) := by rw [← two_succ]; congr 1; omega
  have hpos := two_pos (F.hi - F.p - 1)
  have hlim : limit F = 2 ^ F.hi - 2 ^ (F.hi - F.p - 1) := rfl
  constructor
  · intro h
    apply Classical.byContradiction
    intro hc
    have hc := Rat.not_le.1 hc
    have h1 := C129_nearest hp hx (grid_largest hF)
    rw [largest_eq, hhalf] at h1
    unfold dist at h1
    grind
  · intro h
    by_cases htop : (2 : Rat) ^ F.hi ≤ x
    · have := near_mono hp (Rat.le_of_lt (two_pos F.hi)) htop
      rwa [near_grid hp (grid_top hp hF)] at this
    · have htop := Rat.not_le.1 htop
      have hx0 : 0 < x := by
        have : (2 : Rat) ^ (F.hi - F.p - 1) < 2 ^ F.hi := by
          have h1 := two_mono (show F.hi - F.p - 1 ≤ F.hi - 1 by omega)
          have h2 : (2 : Rat) ^ F.hi = 2 * 2 ^ (F.hi - 1) := by rw [← two_succ]; congr 1; omega
          have h3 := two_pos (F.hi - 1)
          grind
        grind
      have he : expo x = F.hi - 1 := by
        obtain ⟨a, b⟩ := expo_spec hx0
        have h2 : (2 : Rat) ^ F.hi = 2 * 2 ^ (F.hi - 1) := by rw [← two_succ]; congr 1; omega
        have h1 := two_mono (show F.hi - F.p - 1 ≤ F.hi - 1 by omega)
        have c1 : F.hi - 1 < expo x + 1 := two_lt (by grind)
        have c2 : expo x < F.hi := two_lt (by grind)
        omega
      have hq : quantum F x = 2 ^ (F.hi - F.p) := by
        rw [quantum, he]; congr 1; omega
      have hu := quantum_pos (F := F) x
      -- the quotient is at least `2^p - 1/2`
      have hquot : ((2 ^ F.p : Int) : Rat) - 1 / 2 ≤ x / quantum F x := by
        apply le_of_mul hu
        rw [div_quantum, hq]
        have e : (2 : Rat) ^ F.hi = 2 ^ (F.p : Int) * 2 ^ (F.hi - F.p) := by rw [← two_add]; congr 1; omega
        have e2 : ((2 ^ F.p : Int) : Rat) = 2 ^ (F.p : Int) := by rw [two_nat]; norm_cast
        rw [e2]
        rw [hlim, e, hhalf] at h
        rw [hhalf]
        grind
      have hn : (2 ^ F.p : Int) ≤ nearestInt (x / quantum F x) := by
        apply Classical.byContradiction
        intro hlt
        have hd := nearestInt_half (x / quantum F x)
        have hle : ((nearestInt (x / quantum F x) : Int) : Rat) ≤ ((2 ^ F.p : Int) : Rat) - 1 := by
          have : nearestInt (x / quantum F x) ≤ 2 ^ F.p - 1 := by omega
          have := cast_le this
          rw [Rat.intCast_sub] at this
          exact this
        have heq : dist (x / quantum F x) (nearestInt (x / quantum F x)) = 1 / 2 := by
          unfold dist at hd ⊢
          grind
        have hev := nearestInt_even heq
        have hge : (2 ^ F.p : Int) - 1 ≤ nearestInt (x / quantum F x) := by
          apply nearestInt_ge
          rw [Rat.intCast_sub]
          have e1 : ((1 : Int) : Rat) = 1 := rfl
          rw [e1]
          grind
        have e2 : (2 : Int) ^ F.p = 2 * 2 ^ (F.p - 1) := by
          obtain ⟨n, hn⟩ : ∃ n, F.p = n + 1 := ⟨F.p - 1, by omega⟩
          rw [hn, Nat.add_sub_cancel, Int.pow_succ]; omega
        omega
      rw [near_pos_eq hx0]
      have h1 := Rat.mul_le_mul_of_nonneg_right (cast_le hn) (Rat.le_of_lt hu)
      have e : (2 : Rat) ^ F.hi = ((2 ^ F.p : Int) : Rat) * quantum F x := by
        have e2 : ((2 ^ F.p : Int) : Rat) = 2 ^ (F.p : Int) := by rw [two_nat]; norm_cast
        rw [e2, hq, ← two_add]; congr 1; omega
      rw [e]; exact h1

/-! ## Written with many digits -/

theorem written_nonneg (P : Nat) {x : Rat} (hx : 0 ≤ x) : 0 ≤ written P x := by
  by_cases h0 : x = 0
  · subst h0; exact Rat.le_refl
  have hx : 0 < x := by grind
  rw [written_pos P hx, decValue]
  exact Rat.mul_nonneg Rat.natCast_nonneg (Rat.le_of_lt (ten_pos _))

theorem near_written (hp : 0 < F.p) {P : Nat} (h : 2 ^ F.p < 10 ^ (P - 1)) {x : Rat} (hg : Grid F x) : near F (written P x) = x := by
  have hP : 0 < P := by
    apply Classical.byContradiction
    intro h0
    obtain rfl : P = 0 := by omega
    have : 0 < 2 ^ F.p := Nat.pow_pos (by decide)
    rw [Nat.zero_sub, Nat.pow_zero] at h; omega
  have hmax : max P 1 = P := by omega
  have hx0 := grid_nonneg hg
  by_cases h0 : x = 0
  · subst h0; exact near_zero
  have hx : 0 < x := by grind
  have hclose := C120_error P x
  rw [hmax] at hclose
  have ed : dist x 0 = x := by unfold dist; split <;> grind
  rw [ed] at hclose
  have hround := round_decimal hp hP h hx (grid_float hg)
  have hw : written P x = decValue P (decimal P x) := by rw [written_pos P hx, hmax]
  rw [← hw] at hround
  have hwpos : 0 < written P x := by
    have hnn := written_nonneg P hx0
    by_cases hw0 : written P x = 0
    · rw [hw0] at hround
      have : x = 0 := by rw [← hround]; rfl
      exact absurd this h0
    · grind
  generalize written P x = w at *
  by_cases hn : F.lo ≤ expo w + 1 - (F.p : Int)
  · rw [near_normal hwpos hn, ← round_of_pos hwpos]; exact hround
  · obtain ⟨K, hK⟩ := grid_multiple hg
    have hq := quantum_low (F := F) (x := w) (by omega)
    have hu := quantum_pos (F := F) w
    -- `x < 2^(lo+p)`
    have hT : ((2 ^ F.p : Nat) : Rat) < ((10 ^ (P - 1) : Nat) : Rat) := by exact_mod_cast h
    have hT1 : (1 : Rat) ≤ ((2 ^ F.p : Nat) : Rat) := by exact_mod_cast Nat.one_le_two_pow
    have hd0 := dist_nonneg x w
    have hw2 : w < 2 ^ (F.lo + F.p - 1) := by
      have := (expo_spec hwpos).2
      have h2 := two_mono (show expo w + 1 ≤ F.lo + F.p - 1 by omega)
      grind
    have hsum : x ≤ w + dist x w := by unfold dist; split <;> grind
    have hd1 : 2 * dist x w ≤ x := by
      have : 2 * dist x w * 1 ≤ 2 * dist x w * ((10 ^ (P - 1) : Nat) : Rat) :=
        Rat.mul_le_mul_of_nonneg_left (by grind) (by grind)
      grind
    have hx2 : x < 2 ^ (F.lo + F.p) := by
      have e : (2 : Rat) ^ (F.lo + F.p) = 2 * 2 ^ (F.lo + F.p - 1) := by rw [← two_succ]; congr 1; omega
      rw [e]; grind
    have hx3 : x < 2 ^ F.lo * ((2 ^ F.p : Nat) : Rat) := by rw [← two_nat, ← two_add]; exact hx2
    have hd2 : 2 * dist x w < 2 ^ F.lo := by
      apply lt_of_mul (show (0 : Rat) < ((10 ^ (P - 1) : Nat) : Rat) by grind)
      have := Rat.mul_lt_mul_of_pos_left hT (two_pos F.lo)
      grind
    have hnear : nearestInt (w / quantum F w) = K := by
      apply nearestInt_eq
      apply lt_of_mul hu
      rw [← dist_mul hu, div_quantum, Rat.intCast_natCast, hq, ← hK, dist_comm]
      grind
    rw [near_pos_eq hwpos, hnear, hq, Rat.intCast_natCast, hK]

end Helper.Double
