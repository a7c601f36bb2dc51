import Verif.Basic
/-!
# C143: `ResultOf<F(AS...)>` and `InvokeResult<F,AS...>` (metaprogramming.hpp:74-77)

`F(AS...)` is a function type, and function types adjust the types of their parameters [dcl.fct].
-/
set_option linter.unusedSectionVars false
namespace Helper.Meta.ResultOf

variable {B : Type}

/-! ## Model -/

/-- Types over classes and scalars `B`; `fn i` is a function type. `volatile` is not modelled. -/
inductive Ty (B : Type) where
  | void
  | obj (base : B) (const : Bool)
  | ptr (to : Ty B) (const : Bool)
  | arr (of : Ty B) (n : Nat)
  | fn (i : Nat)
  | lref (to : Ty B)
  | rref (to : Ty B)
deriving DecidableEq, Repr

/-- What the program declares: the types of `INVOKE(f, as...)`, where it is well-formed; there are no expressions of type `void` as arguments. -/
structure World (B : Type) where
  invoke : Ty B → List (Ty B) → Option (Ty B)
  novoid : ∀ f as, .void ∈ as → invoke f as = none

/-- [dcl.fct]: arrays and functions become pointers, and `const` at the top is dropped. -/
def adjust : Ty B → Ty B
  | .obj b _ => .obj b false
  | .ptr t _ => .ptr t false
  | .arr t _ => .ptr t false
  | .fn i => .ptr (.fn i) false
  | t => t

/-- A type that functions can return. -/
def returnable : Ty B → Bool
  | .arr _ _ => false
  | .fn _ => false
  | _ => true

/-- The function type `F(AS...)` as written by the user: the return type and the types of the parameters; `none` if there is no such type. A list that
consists of `void` is the empty list. -/
def sign [DecidableEq B] (f : Ty B) (as : List (Ty B)) : Option (Ty B × List (Ty B)) :=
  if returnable f = false then none
  else if as = [.void] then some (f, [])
  else if .void ∈ as then none
  else some (f, as.map adjust)

/-- Line 74 `InvokeResult<F,AS...>`. -/
def invokeResult (w : World B) (f : Ty B) (as : List (Ty B)) : Option (Ty B) := w.invoke f as

/-- Lines 75-77 `ResultOf<F(AS...)>`: the partial specialisation takes the function type apart. -/
def resultOf [DecidableEq B] (w : World B) (f : Ty B) (as : List (Ty B)) : Option (Ty B) :=
  match sign f as with
  | none => none
  | some (f, as) => invokeResult w f as

/-! ## Properties -/

/-- A type that stays what it is as the type of a parameter: a reference, or an object that is not const and not an array. -/
def Stable (t : Ty B) : Prop := (∃ u, t = .lref u ∨ t = .rref u) ∨ (∃ b, t = .obj b false) ∨ ∃ u, t = .ptr u false

theorem adjust_iff {t : Ty B} (hv : t ≠ .void) : adjust t = t ↔ Stable t := by
  cases t with
  | void => exact absurd rfl hv
  | obj b c => cases c <;> simp [adjust, Stable]
  | ptr u c => cases c <;> simp [adjust, Stable]
  | arr u n => simp [adjust, Stable]
  | fn i => simp [adjust, Stable]
  | lref u => simp [adjust, Stable]
  | rref u => simp [adjust, Stable]

variable [DecidableEq B]

/-- **C143**: `ResultOf<F(AS...)>` is `InvokeResult<F,AS...>` in every program exactly if `F` is neither an array nor a function and the arguments are
references, or objects that are neither const nor arrays nor functions. -/
theorem C143_iff_partial (f : Ty B) (as : List (Ty B)) (hv : .void ∉ as) :
    (∀ w : World B, resultOf w f as = invokeResult w f as) ↔ returnable f = true ∧ ∀ a ∈ as, Stable a := by
  have hne : as ≠ [.void] := fun h => hv (by simp [h])
  have hmap : as.map adjust = as ↔ ∀ a ∈ as, Stable a := by
    have h1 : as.map adjust = as ↔ as.map adjust = as.map id := by rw [List.map_id]
    rw [h1, List.map_inj_left]
    exact ⟨fun h a ha => (adjust_iff fun e => hv (e ▸ ha)).1 (h a ha), fun h a ha => (adjust_iff fun e => hv (e ▸ ha)).2 (h a ha)⟩
  constructor
  · intro h
    -- a program in which just this call is possible
    have hw := h ⟨fun g bs => if g = f ∧ bs = as then some .void else none, fun g bs hb => by
      rw [if_neg]; rintro ⟨_, rfl⟩; exact hv hb⟩
    simp only [resultOf, sign, invokeResult, if_neg hne, if_neg hv] at hw
    cases hr : returnable f with
    | false => simp [hr] at hw
    | true =>
      simp only [hr, Bool.true_eq_false, if_false, true_and, and_self, if_true] at hw
      refine ⟨rfl, hmap.1 ?_⟩
      cases Decidable.em (as.map adjust = as) with
      | inl h => exact h
      | inr h => rw [if_neg h] at hw; cases hw
  · rintro ⟨hr, hs⟩ w
    simp only [resultOf, sign, if_neg hne, if_neg hv, hr, Bool.true_eq_false, if_false, hmap.2 hs]

/-- **C143**: in general it is the result for the adjusted arguments; nothing for functions and arrays `F`. -/
theorem C143_adjusted (w : World B) (f : Ty B) (as : List (Ty B)) (hv : .void ∉ as) :
    resultOf w f as = if returnable f then invokeResult w f (as.map adjust) else none := by
  have hne : as ≠ [.void] := fun h => hv (by simp [h])
  simp only [resultOf, sign, if_neg hne, if_neg hv]
  cases returnable f <;> rfl

/-- **C143**: `ResultOf<F(void)>` is the result of a call without arguments, where `InvokeResult<F,void>` does not exist. -/
theorem C143_void (w : World B) (f : Ty B) (hr : returnable f = true) :
    resultOf w f [.void] = invokeResult w f [] ∧ invokeResult w f [.void] = none := by
  refine ⟨?_, w.novoid f _ (by simp)⟩
  simp [resultOf, sign, hr]

/-- C143 is false for const arguments: a function object can give any two results for const and other rvalues. -/
theorem C143_const_refuted (f : Ty B) (hr : returnable f = true) (b : B) (t u : Ty B) :
    ∃ w : World B, invokeResult w f [.obj b true] = some t ∧ resultOf w f [.obj b true] = some u := by
  refine ⟨⟨fun _ as => if .void ∈ as then none else if as = [.obj b true] then some t else some u, fun _ as h => by rw [if_pos h]⟩, ?_, ?_⟩
  · simp [invokeResult]
  · simp [resultOf, sign, hr, invokeResult, adjust]

/-- C143 is false for functions: `ResultOf` of a function type is never well-formed. -/
theorem C143_function_refuted (i : Nat) (as : List (Ty B)) (w : World B) : resultOf w (.fn i) as = none := by
  simp [resultOf, sign, returnable]

/-- The world of a function `int(int)`: base `true` is `int`. -/
def intFunction : World Bool := ⟨fun f as => if f = .fn 0 ∨ f = .lref (.fn 0) ∨ f = .ptr (.fn 0) false then
  (if as = [.obj true false] ∨ as = [.obj true true] ∨ as = [.lref (.obj true false)] then some (.obj true false) else none) else none,
  fun f as h => by
    split
    · rw [if_neg]
      rintro (rfl | rfl | rfl) <;> simp at h
    · rfl⟩

example : invokeResult intFunction (.fn 0) [.obj true false] = some (.obj true false) ∧ resultOf intFunction (.fn 0) [.obj true false] = none ∧
    resultOf intFunction (.ptr (.fn 0) false) [.obj true false] = some (.obj true false) ∧
    resultOf intFunction (.lref (.fn 0)) [.obj true true] = some (.obj true false) := by decide

example : returnable (.obj true false) = true ∧ Stable (.lref (.arr (.obj true false) 3)) := ⟨rfl, .inl ⟨_, .inl rfl⟩⟩

end Helper.Meta.ResultOf
