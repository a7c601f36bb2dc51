import Verif.Meta.Model
/-!
# Property C59
-/
namespace Helper.Meta

variable {T : Type} [DecidableEq T]

/-- C59: `AreAllSame` iff all the types are equal. -/
theorem C59_areAllSame : ∀ ts : List T, areAllSame ts = true ↔ ∀ a ∈ ts, ∀ b ∈ ts, a = b := by
  intro ts
  match ts with
  | [] => simp [areAllSame]
  | [x] => simp [areAllSame]
  | t0 :: t1 :: ts =>
    rw [areAllSame]
    by_cases h : t0 = t1
    · subst h
      rw [if_pos rfl, C59_areAllSame (t0 :: ts)]
      simp
    · rw [if_neg h]
      simp only [Bool.false_eq_true, false_iff]
      intro H
      exact h (H t0 (by simp) t1 (by simp))
termination_by ts => ts.length

/-- C59: `IsOneOf` iff the type occurs. -/
theorem C59_isOneOf (t : T) (us : List T) : isOneOf t us = true ↔ t ∈ us := by
  induction us with
  | nil => simp [isOneOf]
  | cons u us ih =>
    rw [isOneOf, List.mem_cons]
    by_cases h : t = u
    · simp [h]
    · simp [h, ih]

/-- C59: `IndexOf` is the position of the first occurrence, and exists iff there is one. -/
theorem C59_indexOf (t : T) (ts : List T) (n : Nat) :
    indexOf t ts = some n ↔ ts[n]? = some t ∧ ∀ m, m < n → ts[m]? ≠ some t := by
  induction ts generalizing n with
  | nil => simp [indexOf]
  | cons t0 ts ih =>
    rw [indexOf]
    by_cases h : t = t0
    · subst h
      rw [if_pos rfl]
      cases n with
      | zero => simp
      | succ n =>
        simp only [Option.some.injEq]
        constructor
        · intro h; omega
        · rintro ⟨_, h⟩
          exact absurd rfl (h 0 (by omega))
    · rw [if_neg h]
      cases n with
      | zero =>
        simp only [List.getElem?_cons_zero, Option.some.injEq, Nat.not_lt_zero, false_implies, implies_true, and_true]
        constructor
        · intro e
          cases hi : indexOf t ts <;> rw [hi] at e <;> simp at e
        · intro e; exact absurd e.symm h
      | succ n =>
        have : (indexOf t ts).map (· + 1) = some (n + 1) ↔ indexOf t ts = some n := by
          cases indexOf t ts <;> simp
        rw [this, ih, List.getElem?_cons_succ]
        refine and_congr Iff.rfl ⟨fun H m hm => ?_, fun H m hm => ?_⟩
        · cases m with
          | zero => intro e; simp at e; exact h e.symm
          | succ m => rw [List.getElem?_cons_succ]; exact H m (by omega)
        · have := H (m + 1) (by omega)
          rwa [List.getElem?_cons_succ] at this

/-- C59: `IndexOf` does not exist iff the type does not occur, so `IsOneOf` tells whether it exists. -/
theorem C59_indexOf_none (t : T) (ts : List T) : (indexOf t ts = none ↔ t ∉ ts) ∧ (isOneOf t ts = (indexOf t ts).isSome) := by
  have h1 : indexOf t ts = none ↔ t ∉ ts := by
    induction ts with
    | nil => simp [indexOf]
    | cons u ts ih =>
      rw [indexOf, List.mem_cons]
      by_cases h : t = u
      · simp [h]
      · simp [h, ih]
  refine ⟨h1, ?_⟩
  rw [Bool.eq_iff_iff, C59_isOneOf]
  cases hi : indexOf t ts with
  | none => simp [h1.1 hi]
  | some n =>
    simp only [Option.isSome_some, iff_true]
    cases Decidable.em (t ∈ ts) with
    | inl h => exact h
    | inr h => rw [h1.2 h] at hi; cases hi

/-- C59: `First` and `Second`. -/
theorem C59_first_second (ts : List T) : first ts = ts[0]? ∧ second ts = ts[1]? := by
  match ts with
  | [] => exact ⟨rfl, rfl⟩
  | [_] => exact ⟨rfl, rfl⟩
  | _ :: _ :: _ => exact ⟨rfl, rfl⟩

example : areAllSame [3, 3, 3] = true ∧ areAllSame [3, 3, 4] = false ∧ isOneOf 2 [1, 2, 3] = true ∧
    isOneOf 5 [1, 2, 3] = false ∧ indexOf 2 [1, 2, 2] = some 1 ∧ indexOf 5 [1, 2] = none := by decide +kernel

end Helper.Meta
