import Verif.Arith.Props
import Verif.Macro.Model
import Verif.TestC.Model
set_option linter.unusedSectionVars false
/-!
# Property C150: comparisons of integers of different types by the macros (test.hpp:260-337, macros.hpp:138-144)

`HELPER_TEST_EQUAL`, `HELPER_TEST_EQUALS`, `HELPER_TEST_NOT_EQUAL`, `HELPER_TEST_LESS` and `HELPER_ASSERT_EQUAL` compare their arguments with the built-in
operators: both are converted to the common type first. The arguments are constants here, so that evaluating them again for the messages does not matter.
-/
namespace Helper.Arith
open Helper.Macro Helper.TestC

variable (P : Platform)

/-- `x == y` for integers of the types `a` and `b` (test.hpp:263, 278, 293, macros.hpp:140). -/
def Platform.equal (a b : Ty) (x y : Rat) : Option Bool := (P.usual a b).map fun t => decide (P.conv t x = P.conv t y)

/-- An integer of a type. -/
abbrev IVal := ITy × Int

/-- The comparison `==` of two integers in a macro; it always compiles. -/
def eqE {σ : Type} (p q : IVal) : Exp σ Bool := .pure ((P.equal (.int p.1) (.int q.1) p.2 q.2).getD false)

/-- The comparison `<` (test.hpp:329). -/
def ltE {σ : Type} (p q : IVal) : Exp σ Bool := .pure ((P.less (.int p.1) (.int q.1) p.2 q.2).getD false)

/-! ## Specification -/

/-- A value of its type. -/
def Ok (p : IVal) : Prop := P.lo p.1 ≤ p.2 ∧ p.2 ≤ P.hi p.1

/-- The common type. -/
def com (p q : IVal) : ITy := P.common (P.promote p.1) (P.promote q.1)

/-! ## Proofs -/

theorem com_comm (p q : IVal) : com P p q = com P q p := common_comm (promote_promoted _) (promote_promoted _)

theorem hi_com (p q : IVal) : P.hi p.1 ≤ P.hi (com P p q) := by
  have f := fits_promote (P := P) p.1
  simp only [Platform.fits, Bool.and_eq_true, decide_eq_true_eq] at f
  have h3 := hi_common (P := P) (promote_promoted (P := P) p.1) (promote_promoted (P := P) q.1)
  unfold com
  omega

theorem low (i : ITy) : -P.hi i - 1 ≤ P.lo i := by
  have := lo_le_hi P i
  unfold Platform.lo Platform.hi at *
  cases hs : P.signed i <;> simp [hs] at this ⊢ <;> omega

/-- What the common type makes of a value. -/
theorem conv_com {p q : IVal} (hp : Ok P p) :
    P.conv (.int (com P p q)) (p.2 : Rat) =
      ((if 0 ≤ p.2 ∨ P.signed (com P p q) = true then p.2 else p.2 + 2 ^ P.width (com P p q) : Int) : Rat) := by
  have hh := hi_com P p q
  have hl := lo_le_hi P (com P p q)
  have hb := lo_le_hi P p.1
  by_cases h : 0 ≤ p.2 ∨ P.signed (com P p q) = true
  · rw [if_pos h]
    apply C105_conv
    rcases h with h | h
    · exact (has_int P).2 ⟨by omega, by have := hp.2; omega⟩
    · exact (C105_values_partial P p.1 q.1 _ rfl).2 (fun _ => h) _ ((has_int P).2 hp)
  · rw [if_neg h]
    have hs : P.signed (com P p q) = false := by
      cases hs : P.signed (com P p q) with
      | false => rfl
      | true => exact absurd (.inr hs) h
    have hn : p.2 < 0 := by
      apply Int.not_le.1; intro h'; exact h (.inl h')
    have h0 : P.lo (com P p q) = 0 := by unfold Platform.lo; rw [hs]; rfl
    have ha : P.signed p.1 = true := by
      cases ha : P.signed p.1 with
      | true => rfl
      | false =>
        have : P.lo p.1 = 0 := by unfold Platform.lo; rw [ha]; rfl
        have := hp.1
        omega
    have hlo : P.lo p.1 = -(P.hi p.1) - 1 := by unfold Platform.lo Platform.hi; rw [if_pos ha, if_pos ha]; omega
    have h1 := hp.1
    simp only [Platform.conv, Rat.floor_intCast, Platform.wrap, h0]
    congr 1
    have hw : (0 : Int) < 2 ^ P.width (com P p q) := pow_pos _
    generalize (2 : Int) ^ P.width (com P p q) = N at *
    have : (p.2 - 0) % N = p.2 + N := by
      rw [Int.sub_zero, ← Int.add_emod_right]
      exact Int.emod_eq_of_lt (by omega) (by omega)
    omega

/-- `==` on integers, exactly: equal numbers are equal, and so are a negative number and the one that the unsigned common type makes of it. -/
theorem C150_equal_iff {p q : IVal} (hp : Ok P p) (hq : Ok P q) : P.equal (.int p.1) (.int q.1) p.2 q.2 =
    some (decide (p.2 = q.2 ∨ P.signed (com P p q) = false ∧
      (p.2 = q.2 + 2 ^ P.width (com P p q) ∨ q.2 = p.2 + 2 ^ P.width (com P p q)))) := by
  have e1 := conv_com P (q := q) hp
  have e2 := conv_com P (q := p) hq
  rw [com_comm] at e2
  have h1 := hi_com P p q
  have h2 := hi_com P q p
  rw [com_comm] at h2
  have hl := lo_le_hi P (com P p q)
  have b1 := hp.2
  have b2 := hq.2
  have b3 := hp.1
  have b4 := hq.1
  have b5 := low P p.1
  have b6 := low P q.1
  have u : P.usual (.int p.1) (.int q.1) = some (.int (com P p q)) := rfl
  rw [Platform.equal, u, Option.map_some, e1, e2]
  congr 1
  rw [decide_eq_decide, Rat.intCast_inj]
  have hw : (0 : Int) < 2 ^ P.width (com P p q) := pow_pos _
  cases hs : P.signed (com P p q) with
  | true => simp
  | false =>
    have h0 : P.lo (com P p q) = 0 := by unfold Platform.lo; rw [hs]; rfl
    generalize (2 : Int) ^ P.width (com P p q) = N at *
    simp only [Bool.false_eq_true, or_false, true_and]
    split <;> split <;> omega

/-- `<` on integers, exactly. -/
theorem C150_less_iff {p q : IVal} (hp : Ok P p) (hq : Ok P q) : P.less (.int p.1) (.int q.1) p.2 q.2 =
    some (decide (if P.signed (com P p q) = false ∧ p.2 < 0 ∧ 0 ≤ q.2 then p.2 + 2 ^ P.width (com P p q) < q.2
      else if P.signed (com P p q) = false ∧ q.2 < 0 ∧ 0 ≤ p.2 then p.2 < q.2 + 2 ^ P.width (com P p q) else p.2 < q.2)) := by
  have e1 := conv_com P (q := q) hp
  have e2 := conv_com P (q := p) hq
  rw [com_comm] at e2
  have u : P.usual (.int p.1) (.int q.1) = some (.int (com P p q)) := rfl
  rw [Platform.less, u, Option.map_some, e1, e2]
  congr 1
  rw [decide_eq_decide, Rat.intCast_lt_intCast]
  generalize (2 : Int) ^ P.width (com P p q) = N at *
  cases hs : P.signed (com P p q) with
  | true => simp
  | false =>
    simp only [Bool.false_eq_true, or_false, true_and]
    split <;> split <;> split <;> (try split) <;> omega

/-- Numbers that are equal are found equal, whatever their types. -/
theorem C150_same {p q : IVal} (hp : Ok P p) (hq : Ok P q) (h : p.2 = q.2) : P.equal (.int p.1) (.int q.1) p.2 q.2 = some true := by
  rw [C150_equal_iff P hp hq]; simp [h]

/-- C150 for a signed common type, and for numbers that are not negative. -/
theorem C150_partial {p q : IVal} (hp : Ok P p) (hq : Ok P q) (h : P.signed (com P p q) = true ∨ 0 ≤ p.2 ∧ 0 ≤ q.2) :
    P.equal (.int p.1) (.int q.1) p.2 q.2 = some (decide (p.2 = q.2)) ∧ P.less (.int p.1) (.int q.1) p.2 q.2 = some (decide (p.2 < q.2)) := by
  rw [C150_equal_iff P hp hq, C150_less_iff P hp hq]
  have h1 := hi_com P p q
  have h2 := hi_com P q p
  rw [com_comm] at h2
  have hl := lo_le_hi P (com P p q)
  have b1 := hp.2
  have b2 := hq.2
  refine ⟨congrArg some (decide_eq_decide.2 ?_), congrArg some (decide_eq_decide.2 ?_)⟩
  · rcases h with h | h
    · simp [h]
    · constructor
      · rintro (h' | ⟨hs, h'⟩)
        · exact h'
        · have h0 : P.lo (com P p q) = 0 := by unfold Platform.lo; rw [hs]; rfl
          generalize (2 : Int) ^ P.width (com P p q) = N at *
          omega
      · exact .inl
  · rcases h with h | h
    · simp [h]
    · rw [if_neg (by omega), if_neg (by omega)]

/-- The common type is signed iff one of the promoted types is signed and has the values of both. -/
theorem C150_signed_iff (p q : IVal) : P.signed (com P p q) = true ↔
    ∃ i ∈ [P.promote p.1, P.promote q.1], P.signed i = true ∧ P.fits (P.promote p.1) i = true ∧ P.fits (P.promote q.1) i = true := by
  have ha := promote_promoted (P := P) p.1
  have hb := promote_promoted (P := P) q.1
  unfold com
  generalize P.promote p.1 = a at *
  generalize P.promote q.1 = b at *
  have h2 := P.short_le; have h3 := P.short_int; have h4 := P.int_long; have h5 := P.long_llong
  rw [promoted_mem] at ha hb
  simp only [promotedTypes, List.mem_cons, List.not_mem_nil, or_false] at ha hb
  rcases ha with rfl | rfl | rfl | rfl | rfl | rfl <;> rcases hb with rfl | rfl | rfl | rfl | rfl | rfl <;>
    by_cases c1 : P.wInt < P.wLong <;> by_cases c2 : P.wInt < P.wLLong <;> by_cases c3 : P.wLong < P.wLLong <;>
    simp [Platform.common, rank, unsignedOf, fits_iff, Platform.signed, Platform.width, c1, c2, c3] <;> omega

/-! ## The macros -/

section macros
variable {σ : Type}

/-- The macros on constants: which of them count a failure. -/
theorem C150_macros (rtl : Bool) (p q : IVal) (hp : Ok P p) (hq : Ok P q) (w : W σ) (hw : w.fails + 1 < 2 ^ 31) :
    let eq := P.equal (.int p.1) (.int q.1) p.2 q.2
    let lt := P.less (.int p.1) (.int q.1) p.2 q.2
    let up := { w with fails := w.fails + 1 }
    exec rtl (.equal (eqE P) (.pure p) (.pure q)) w = (.val (), if eq = some true then w else up) ∧
    exec rtl (.equals (eqE P) (.pure p) (.pure q)) w = (.val (), if eq = some true then w else up) ∧
    exec rtl (.notEqual (eqE P) (.pure p) (.pure q)) w = (.val (), if eq = some true then up else w) ∧
    exec rtl (.less (ltE P) (.pure p) (.pure q)) w = (.val (), if lt = some true then w else up) ∧
    ∀ s : σ, assertEqual rtl (eqE P) (.pure p) (.pure q) s = (if eq = some true then .val () else .thrown runtimeError, s) := by
  intro eq lt up
  obtain ⟨e, he⟩ : ∃ e, P.equal (.int p.1) (.int q.1) p.2 q.2 = some e := ⟨_, C150_equal_iff P hp hq⟩
  obtain ⟨l, hl⟩ : ∃ l, P.less (.int p.1) (.int q.1) p.2 q.2 = some l := ⟨_, C150_less_iff P hp hq⟩
  have he' : eq = some e := he
  have hl' : lt = some l := hl
  rw [he', hl']
  refine ⟨?_, ?_, ?_, ?_, ?_⟩
  · cases rtl <;> cases e <;> simp [exec, TestC.equal, Exp.both, eqE, he, M.lift, M.bind, Exp.pure, Exp.bind, incr, show_, M.pure, hw, up]
  · cases rtl <;> cases e <;> simp [exec, TestC.equals, Exp.both, eqE, he, M.lift, M.bind, Exp.pure, Exp.bind, incr, show_, M.pure, hw, up]
  · cases rtl <;> cases e <;> simp [exec, TestC.notEqual, Exp.both, eqE, he, M.lift, M.bind, Exp.pure, Exp.bind, incr, show_, M.pure, hw, up]
  · cases rtl <;> cases l <;> simp [exec, TestC.less, Exp.both, ltE, hl, M.lift, M.bind, Exp.pure, Exp.bind, incr, show_, M.pure, hw, up]
  · intro s
    cases rtl <;> cases e <;> simp [assertEqual, Exp.both, eqE, he, Exp.pure, Exp.bind, throwRt, Exp.throw]

/-- The same for `HELPER_TEST_CHECK` (lines 213-224), whose comparison is in a function template, and `HELPER_TEST_COMPARE` (lines 371-382) with `==` or `<`. -/
theorem C150_check (rtl : Bool) (p q : IVal) (hp : Ok P p) (hq : Ok P q) (w : W σ) (hw : w.fails + 1 < 2 ^ 31) :
    let eq := P.equal (.int p.1) (.int q.1) p.2 q.2
    let lt := P.less (.int p.1) (.int q.1) p.2 q.2
    let up := { w with fails := w.fails + 1 }
    exec rtl (.check (eqE P) (.pure p) (.pure q)) w = (.val (), if eq = some true then w else up) ∧
    exec rtl (.compare (eqE P) (.pure p) (.pure q)) w = (.val (), if eq = some true then w else up) ∧
    exec rtl (.compare (ltE P) (.pure p) (.pure q)) w = (.val (), if lt = some true then w else up) ∧
    exec rtl (.checkWarn (eqE P) (.pure p) (.pure q)) w = (.val (), w) := by
  intro eq lt up
  obtain ⟨e, he⟩ : ∃ e, P.equal (.int p.1) (.int q.1) p.2 q.2 = some e := ⟨_, C150_equal_iff P hp hq⟩
  obtain ⟨l, hl⟩ : ∃ l, P.less (.int p.1) (.int q.1) p.2 q.2 = some l := ⟨_, C150_less_iff P hp hq⟩
  have he' : eq = some e := he
  have hl' : lt = some l := hl
  rw [he', hl']
  refine ⟨?_, ?_, ?_, ?_⟩
  · cases rtl <;> cases e <;> simp [exec, TestC.check, testingCheck, Exp.both, eqE, he, M.lift, M.bind, Exp.pure, Exp.bind, incr, show_, M.pure, hw, up]
  · cases rtl <;> cases e <;> simp [exec, TestC.compare, Exp.both, eqE, he, M.lift, M.bind, Exp.pure, Exp.bind, incr, show_, M.pure, hw, up]
  · cases rtl <;> cases l <;> simp [exec, TestC.compare, Exp.both, ltE, hl, M.lift, M.bind, Exp.pure, Exp.bind, incr, show_, M.pure, hw, up]
  · cases rtl <;> cases e <;> simp [exec, TestC.checkWarn, testingCheck, Exp.both, eqE, he, M.lift, M.bind, Exp.pure, Exp.bind, show_, M.pure]

end macros

/-- C150 is false on every platform: -1 is not less than any `unsigned` number, and equal to the largest one. -/
theorem C150_refuted : (∀ y : Int, Ok P (.uint, y) → P.less (.int .int) (.int .uint) ((-1 : Int) : Rat) (y : Rat) = some false) ∧
    P.equal (.int .int) (.int .uint) ((-1 : Int) : Rat) ((P.hi .uint : Int) : Rat) = some true := by
  have hw := width_pos (P := P) .int
  have p1 := pow_pos (P.width .int - 1)
  have h1 : Ok P (.int, -1) := by
    unfold Ok Platform.lo Platform.hi
    simp only [Platform.signed, if_true]
    omega
  have hc : ∀ y, com P (.int, -1) (.uint, y) = .uint := by intro y; simp [com, Platform.promote, Platform.common, Platform.signed, rank]
  have hhi : P.hi .uint = 2 ^ P.width .uint - 1 := rfl
  constructor
  · intro y hy
    have := C150_less_iff P h1 hy
    rw [show (P.less (.int .int) (.int .uint) ((-1 : Int) : Rat) (y : Rat)) = _ from this]
    simp only [hc]
    have hb := hy.2
    have h0 : 0 ≤ y := hy.1
    simp only [hhi] at hb
    simp only [Platform.signed, true_and]
    congr 1
    rw [decide_eq_false_iff_not, if_pos (by omega)]
    omega
  · have hy : Ok P (.uint, P.hi .uint) := ⟨by have := lo_le_hi P .uint; show P.lo .uint ≤ P.hi .uint; omega, Int.le_refl _⟩
    have := C150_equal_iff P h1 hy
    rw [show (P.equal (.int .int) (.int .uint) ((-1 : Int) : Rat) ((P.hi .uint : Int) : Rat)) = _ from this]
    simp only [hc, Platform.signed, true_and]
    congr 1
    rw [decide_eq_true_eq]
    right; right
    show P.hi .uint = -1 + 2 ^ P.width .uint
    omega

end Helper.Arith
