import Verif.Variant.Props
import Verif.Arith.Props
/-!
# Codes of other types than the variant's, and when `accept` compiles (variant.hpp:47-55, variant.inl.hpp), property C132

`Model.lean` takes codes as integers. Here the code type `C` of the variant and the types of the codes of its
alternatives are integer types of any platform (`Arith.Platform`): the constructors (variant.hpp:50-51) convert the
code to `C` implicitly; the condition of the `switch` is promoted, and the constants after `case` are converted to
the promoted type, without narrowing; the operands of `==` in `holds_alternative` (line 55) undergo the usual
arithmetic conversions. An enumeration as `C` admits codes of this type only, which is the case of equal types.
-/
set_option linter.unusedSectionVars false
namespace Helper.Variant

open Arith (Platform ITy)

/-- What matters of the alternatives: the type and the value of `t::code()`, whether `t()` is well-formed, and the
type of the result of the visitor for it. -/
structure Kinds (T : Type) where
  ty : T → ITy
  code : T → Int
  constructible : T → Bool
  result : T → Nat

/-- Values of integer type `i`. -/
def InRange (P : Platform) (i : ITy) (n : Int) : Prop := P.lo i ≤ n ∧ n ≤ P.hi i

instance (P : Platform) (i : ITy) (n : Int) : Decidable (InRange P i n) := inferInstanceAs (Decidable (_ ∧ _))

/-- Conversion to an integer type; to `bool` it is the comparison with zero [conv.bool]. -/
def convert (P : Platform) (i : ITy) (n : Int) : Int :=
  if i = .bool then (if n = 0 then 0 else 1) else P.wrap i n

variable {T ρ σ : Type}

/-- variant.hpp:51 -/
def ofAltC [DecidableEq T] (P : Platform) (C : ITy) (K : Kinds T) (ts : List T) (t : T) : Option CV :=
  ofAlt (convert P C) K.code ts t

/-- variant.hpp:55 -/
def holdsC (P : Platform) (C : ITy) (K : Kinds T) (t : T) (x : CV) : Bool :=
  let i := P.common (P.promote C) (P.promote (K.ty t))
  convert P i x.getCode == convert P i (K.code t)

/-- The results for all alternatives have the type of the first one. -/
def sameResult (K : Kinds T) : List T → Bool
  | [] => true
  | t :: r => r.all fun u => K.result u == K.result t

/-- variant.inl.hpp:172-174 and the instantiation of `coded_visit` it needs, `none` if that is ill-formed: all results
have one type (the deduced `decltype(auto)`), all alternatives can be default-constructed, all codes are values of the
promoted type; `accept` of `Model.lean` asks for distinct codes and at most 16 of them. -/
def acceptC (P : Platform) (C : ITy) (K : Kinds T) (ts : List T) (v : Visitor T ρ σ) (x : CV) : Option (σ → Res ρ × σ) :=
  if ts.all (fun t => K.constructible t && decide (InRange P (P.promote C) (K.code t))) && sameResult K ts then
    accept K.code ts v x
  else none

/-! ## Properties -/

variable {P : Platform} {C : ITy}

theorem convert_id (n : Int) : convert P C n = n ↔ InRange P C n := by
  have hl := Arith.lo_le_hi P C
  unfold convert InRange
  split
  · rename_i h
    subst h
    have h0 : P.lo .bool = 0 := rfl
    have h1 : P.hi .bool = 1 := rfl
    rw [h0, h1]
    split <;> omega
  · have hm := Int.emod_nonneg (n - P.lo C) (show (2 : Int) ^ P.width C ≠ 0 by have := Arith.pow_pos (P.width C); omega)
    have hm2 := Int.emod_lt_of_pos (n - P.lo C) (Arith.pow_pos (P.width C))
    unfold Platform.wrap
    constructor
    · intro h; omega
    · intro h
      rw [Int.emod_eq_of_lt (by omega) (by omega)]
      omega

theorem convert_range (n : Int) : InRange P C (convert P C n) := by
  have hl := Arith.lo_le_hi P C
  unfold convert InRange
  split
  · rename_i h
    subst h
    have h0 : P.lo .bool = 0 := rfl
    have h1 : P.hi .bool = 1 := rfl
    rw [h0, h1]
    split <;> omega
  · have hm := Int.emod_nonneg (n - P.lo C) (show (2 : Int) ^ P.width C ≠ 0 by have := Arith.pow_pos (P.width C); omega)
    have hm2 := Int.emod_lt_of_pos (n - P.lo C) (Arith.pow_pos (P.width C))
    unfold Platform.wrap
    omega

/-- C132: exactly when `accept` compiles. -/
theorem C132_compiles (K : Kinds T) (ts : List T) (v : Visitor T ρ σ) (x : CV) :
    (acceptC P C K ts v x).isSome = true ↔ ts.length ≤ 16 ∧ (ts.map K.code).Nodup ∧ (∀ t ∈ ts, K.constructible t = true) ∧
      (∀ t ∈ ts, InRange P (P.promote C) (K.code t)) ∧ ∀ t ∈ ts, ∀ u ∈ ts, K.result t = K.result u := by
  have hres : sameResult K ts = true ↔
      ∀ t ∈ ts, ∀ u ∈ ts, K.result t = K.result u := by
    cases ts with
    | nil => simp [sameResult]
    | cons a r =>
      rw [sameResult, List.all_eq_true]
      constructor
      · intro h t ht u hu
        have key : ∀ w ∈ a :: r, K.result w = K.result a := by
          intro w hw
          rcases List.mem_cons.1 hw with rfl | hw
          · rfl
          · exact beq_iff_eq.1 (h w hw)
        rw [key t ht, key u hu]
      · intro h u hu
        exact beq_iff_eq.2 (h u (List.mem_cons_of_mem _ hu) a List.mem_cons_self)
  unfold acceptC
  rw [← hres]
  constructor
  · intro h
    split at h
    · rename_i hc
      rw [Bool.and_eq_true, List.all_eq_true] at hc
      obtain ⟨h2, h1⟩ := (C58_wellFormed K.code ts v x).1 h
      refine ⟨h2, h1, fun t ht => ?_, fun t ht => ?_, hc.2⟩
      · exact (Bool.and_eq_true_iff.1 (hc.1 t ht)).1
      · exact of_decide_eq_true (Bool.and_eq_true_iff.1 (hc.1 t ht)).2
    · cases h
  · rintro ⟨h1, h2, h3, h4, h5⟩
    rw [if_pos]
    · exact (C58_wellFormed K.code ts v x).2 ⟨h1, h2⟩
    · rw [Bool.and_eq_true, List.all_eq_true]
      refine ⟨fun t ht => ?_, h5⟩
      rw [Bool.and_eq_true]
      exact ⟨h3 t ht, decide_eq_true (h4 t ht)⟩

/-- C132: where a variant built from an alternative leads: to the alternative whose code is the converted one. -/
theorem C132_exact [DecidableEq T] (K : Kinds T) (ts : List T) (v : Visitor T ρ σ) (hw : (acceptC P C K ts v ⟨0⟩).isSome = true) (t : T) (ht : t ∈ ts) :
    ∃ x, ofAltC P C K ts t = some x ∧ x.code = convert P C (K.code t) ∧
      (∀ u ∈ ts, K.code u = convert P C (K.code t) → acceptC P C K ts v x = some (v u)) ∧
      ((∀ u ∈ ts, K.code u ≠ convert P C (K.code t)) → acceptC P C K ts v x = some fun s => (.abort, s)) := by
  have h := (C132_compiles K ts v ⟨0⟩).1 hw
  refine ⟨⟨convert P C (K.code t)⟩, ?_, rfl, ?_⟩
  · rw [ofAltC, ofAlt, if_pos ((Meta.C59_isOneOf t ts).2 ht)]
  · have he : acceptC P C K ts v ⟨convert P C (K.code t)⟩ = accept K.code ts v ⟨convert P C (K.code t)⟩ := by
      have h' := (C132_compiles (P := P) (C := C) K ts v ⟨convert P C (K.code t)⟩).2 h
      unfold acceptC at h' ⊢
      split at h'
      · rename_i hc; rw [if_pos hc]
      · cases h'
    rw [he]
    exact C58_accept K.code ts h.2.1 h.1 v _

/-- C132: `holds_alternative` is the comparison of the codes for the codes with which `accept` compiles, whatever
their types are. -/
theorem C132_holds (K : Kinds T) (t : T) (x : CV) (hx : InRange P C x.code) (ht : InRange P (P.promote C) (K.code t)) :
    holdsC P C K t x = true ↔ x.code = K.code t := by
  have hp := Arith.promote_promoted (P := P) C
  have hq := Arith.promote_promoted (P := P) (K.ty t)
  have hf := Arith.fits_promote (P := P) C
  simp only [Platform.fits, Bool.and_eq_true, decide_eq_true_eq] at hf
  have hw := (Arith.width_common (P := P) hp hq).1
  have hpow := Arith.pow_le.2 hw
  have hl := Arith.lo_le_hi P (P.promote C)
  have hnb : P.common (P.promote C) (P.promote (K.ty t)) ≠ .bool := by
    rcases Arith.common_promoted (P := P) hp hq with h | h | h | h | h | h <;> rw [h] <;> decide
  unfold holdsC CV.getCode convert
  rw [beq_iff_eq]
  rw [if_neg hnb, if_neg hnb]
  generalize P.common (P.promote C) (P.promote (K.ty t)) = i at *
  unfold InRange at hx ht
  constructor
  · intro h
    unfold Platform.wrap at h
    have h1 : (x.code - P.lo i) % 2 ^ P.width i = (K.code t - P.lo i) % 2 ^ P.width i := by omega
    have h2 : (x.code - K.code t) % 2 ^ P.width i = 0 := by
      have := Int.emod_emod_of_dvd
      rw [Int.emod_eq_emod_iff_emod_sub_eq_zero] at h1
      rwa [show x.code - P.lo i - (K.code t - P.lo i) = x.code - K.code t by omega] at h1
    obtain ⟨c, hc⟩ := Int.dvd_of_emod_eq_zero h2
    have hc0 : c = 0 := by
      have hpos := Arith.pow_pos (P.width i)
      rcases Int.lt_trichotomy c 0 with h | h | h
      · have : (2 : Int) ^ P.width i * c ≤ 2 ^ P.width i * (-1) := Int.mul_le_mul_of_nonneg_left (by omega) (by omega)
        omega
      · exact h
      · have : (2 : Int) ^ P.width i * 1 ≤ 2 ^ P.width i * c := Int.mul_le_mul_of_nonneg_left (by omega) (by omega)
        omega
    rw [hc0] at hc
    omega
  · intro h
    rw [h]

/-- C132: with codes that are values of `C`, of whatever types, a variant built from an alternative holds it and no
other one, and dispatches to it. Codes that are not are lost. -/
theorem C132_iff [DecidableEq T] (K : Kinds T) (ts : List T) (v : Visitor T ρ σ) (hw : (acceptC P C K ts v ⟨0⟩).isSome = true) (t : T) (ht : t ∈ ts) :
    ∃ x, ofAltC P C K ts t = some x ∧ (holdsC P C K t x = true ↔ InRange P C (K.code t)) ∧
      (InRange P C (K.code t) → acceptC P C K ts v x = some (v t) ∧ ∀ u ∈ ts, holdsC P C K u x = true ↔ u = t) ∧
      (¬ InRange P C (K.code t) → (∃ u ∈ ts, u ≠ t ∧ acceptC P C K ts v x = some (v u) ∧ holdsC P C K u x = true) ∨
        acceptC P C K ts v x = some fun s => (.abort, s)) := by
  have h := (C132_compiles K ts v ⟨0⟩).1 hw
  obtain ⟨x, h1, h2, h3, h4⟩ := C132_exact K ts v hw t ht
  have hx : InRange P C x.code := by rw [h2]; exact convert_range _
  refine ⟨x, h1, ?_, ?_, ?_⟩
  · rw [C132_holds K t x hx (h.2.2.2.1 t ht), h2, convert_id]
  · intro hr
    have e := (convert_id (P := P) (C := C) (K.code t)).2 hr
    refine ⟨h3 t ht e.symm, fun u hu => ?_⟩
    rw [C132_holds K u x hx (h.2.2.2.1 u hu), h2, e]
    exact ⟨fun e' => code_inj K.code ts h.2.1 u hu t ht e'.symm, fun e' => by rw [e']⟩
  · intro hr
    have hne := fun e => hr ((convert_id (P := P) (C := C) (K.code t)).1 e)
    by_cases hu : ∃ u ∈ ts, K.code u = convert P C (K.code t)
    · obtain ⟨u, hu, e⟩ := hu
      refine .inl ⟨u, hu, ?_, h3 u hu e, ?_⟩
      · rintro rfl
        exact hne e.symm
      · rw [C132_holds K u x hx (h.2.2.2.1 u hu), h2, e]
    · exact .inr (h4 fun u hu' e => hu ⟨u, hu', e⟩)

/-- C132: codes of the type of the variant (so for enumerations) are always right. -/
theorem C132_same [DecidableEq T] (K : Kinds T) (ts : List T) (v : Visitor T ρ σ) (hw : (acceptC P C K ts v ⟨0⟩).isSome = true)
    (hty : ∀ t ∈ ts, K.ty t = C) (hr : ∀ t ∈ ts, InRange P (K.ty t) (K.code t)) (t : T) (ht : t ∈ ts) :
    ∃ x, ofAltC P C K ts t = some x ∧ acceptC P C K ts v x = some (v t) ∧ ∀ u ∈ ts, holdsC P C K u x = true ↔ u = t := by
  obtain ⟨x, h1, _, h3, _⟩ := C132_iff K ts v hw t ht
  exact ⟨x, h1, h3 (hty t ht ▸ hr t ht)⟩

/-- Alternatives with the codes 300 and 44 of type `int`. -/
def wide : Kinds Bool := ⟨fun _ => .int, fun t => if t then 300 else 44, fun _ => true, fun _ => 0⟩

/-- C58 and C132 fail for codes that are not values of `C`: with `C` = `char` the variant built from the alternative
of code 300 holds and visits the one of code 44. -/
theorem C58_refuted : ∃ (P : Platform) (K : Kinds Bool) (ts : List Bool) (t u : Bool), t ∈ ts ∧ u ≠ t ∧ (ts.map K.code).Nodup ∧
    ∀ (v : Visitor Bool Nat Nat), ∃ x, ofAltC P .char K ts t = some x ∧ holdsC P .char K t x = false ∧ holdsC P .char K u x = true ∧
      acceptC P .char K ts v x = some (v u) := by
  refine ⟨Arith.lp64, wide, [true, false], true, false, by decide, by decide, by decide, fun v => ⟨⟨44⟩, by decide +kernel, by decide +kernel, by decide +kernel, ?_⟩⟩
  have hw : (acceptC Arith.lp64 .char wide [true, false] v ⟨0⟩).isSome = true := by
    rw [C132_compiles]
    decide +kernel
  obtain ⟨x, h1, h2, h3, _⟩ := C132_exact wide [true, false] v hw true (by decide)
  have hc : convert Arith.lp64 .char (wide.code true) = 44 := by decide +kernel
  have hx : x = ⟨44⟩ := by cases x; rw [hc] at h2; simpa using h2
  rw [← hx]
  exact h3 false (by decide) (by rw [hc]; decide)

/-- C132: a visitor whose results have two types does not compile, though it can be called with each alternative; nor
does one for a code that is not a value of the promoted type. -/
theorem C132_refuted :
    (acceptC (ρ := Nat) (σ := Nat) Arith.lp64 .int { wide with result := fun t => if t then 1 else 0 } [true, false] (fun _ s => (.ok 0, s)) ⟨44⟩).isNone = true ∧
    (acceptC (ρ := Nat) (σ := Nat) Arith.lp64 .uint { wide with code := fun _ => -1 } [true] (fun _ s => (.ok 0, s)) ⟨44⟩).isNone = true := by
  decide +kernel

example : (acceptC (ρ := Nat) (σ := Nat) Arith.lp64 .short wide [true, false] (fun t s => (.ok (if t then 1 else 2), s)) ⟨300⟩).map (fun f => (f 0).1) = some (.ok 1) ∧
    holdsC Arith.lp64 .short wide true ⟨300⟩ = true ∧ holdsC Arith.lp64 .uint { wide with code := fun _ => -1 } true ⟨2 ^ 32 - 1⟩ = true := by decide +kernel

end Helper.Variant
