import Verif.Randomiser.Model
/-!
# Properties C67 and C75
-/
set_option linter.unusedSectionVars false
namespace Helper.Randomiser

variable {V E : Type}

/-- C67: construction is defined iff `min ≤ max`. -/
theorem C67_make [LE V] [DecidableLE V] (a b : V) :
    (a ≤ b → make a b = .ok ⟨a, b⟩) ∧ (¬ a ≤ b → make a b = .ub .badBounds) := by
  constructor <;> intro h <;> simp [make, h]

theorem draws_mem (d : Dist V E) (pick : Nat → Nat) (P : V → V → V → Prop) (hd : ∀ a b e, P a b (d a b e).1) :
    ∀ (rs : List (Nat × Randomiser V)) (es : Nat → E),
      (draws d pick rs es).1.length = rs.length ∧
      ∀ (i u : Nat) (r : Randomiser V) (v : V), rs[i]? = some (u, r) → (draws d pick rs es).1[i]? = some v → P r.min r.max v := by
  intro rs
  induction rs with
  | nil => intro es; exact ⟨rfl, fun i u r v h => by simp at h⟩
  | cons x rs ih =>
    intro es
    obtain ⟨u, r⟩ := x
    simp only [draws]
    refine ⟨by simp [(ih _).1], fun i u' r' v h1 h2 => ?_⟩
    cases i with
    | zero =>
      simp at h1 h2
      obtain ⟨rfl, rfl⟩ := h1
      subst h2
      exact hd _ _ _
    | succ i =>
      rw [List.getElem?_cons_succ] at h1 h2
      exact (ih _).2 i u' r' v h1 h2

/-- C67: every draw gives a value in the interval of its randomiser, whatever is drawn in between, if the standard integer
distribution does. -/
theorem C67_int (d : Dist Int E) (hd : ∀ a b e, a ≤ b → a ≤ (d a b e).1 ∧ (d a b e).1 ≤ b) (pick : Nat → Nat)
    (rs : List (Nat × Randomiser Int)) (hr : ∀ x ∈ rs, x.2.min ≤ x.2.max) (es : Nat → E) :
    (draws d pick rs es).1.length = rs.length ∧
    ∀ (i u : Nat) (r : Randomiser Int) (v : Int), rs[i]? = some (u, r) → (draws d pick rs es).1[i]? = some v → r.min ≤ v ∧ v ≤ r.max := by
  obtain ⟨h1, h2⟩ := draws_mem d pick (fun a b v => a ≤ b → a ≤ v ∧ v ≤ b) hd rs es
  exact ⟨h1, fun i u r v hi hv => h2 i u r v hi hv (hr _ (List.mem_of_getElem? hi))⟩

/-- C67: the same for reals with `min < max`, the upper bound being excluded. -/
theorem C67_real_partial (d : Dist Rat E) (hd : ∀ a b e, a < b → a ≤ (d a b e).1 ∧ (d a b e).1 < b) (pick : Nat → Nat)
    (rs : List (Nat × Randomiser Rat)) (hr : ∀ x ∈ rs, x.2.min < x.2.max) (es : Nat → E) :
    (draws d pick rs es).1.length = rs.length ∧
    ∀ (i u : Nat) (r : Randomiser Rat) (v : Rat), rs[i]? = some (u, r) → (draws d pick rs es).1[i]? = some v → r.min ≤ v ∧ v < r.max := by
  obtain ⟨h1, h2⟩ := draws_mem d pick (fun a b v => a < b → a ≤ v ∧ v < b) hd rs es
  exact ⟨h1, fun i u r v hi hv => h2 i u r v hi hv (hr _ (List.mem_of_getElem? hi))⟩

/-- C67 is false for reals with `min = max`, which may be constructed: no value lies in the interval. -/
theorem C67_real_refuted (d : Dist Rat E) (a : Rat) (e : E) :
    make a a = .ok ⟨a, a⟩ ∧ ¬ (a ≤ (get d ⟨a, a⟩ e).1 ∧ (get d ⟨a, a⟩ e).1 < a) := by
  refine ⟨(C67_make a a).1 Rat.le_refl, fun ⟨h1, h2⟩ => ?_⟩
  exact absurd h2 (Rat.not_lt.2 h1)

/-- C67: in a program of one translation unit, or when the linker picks one definition, all draws advance the same engine, one after
the other, and no other engine. -/
theorem C67_shared_partial (d : Dist V E) (pick : Nat → Nat) (k : Nat) : ∀ (rs : List (Nat × Randomiser V)) (es : Nat → E),
    (∀ x ∈ rs, pick x.1 = k) →
    (draws d pick rs es).2 k = rs.foldl (fun e x => (d x.2.min x.2.max e).2) (es k) ∧
    ∀ j, j ≠ k → (draws d pick rs es).2 j = es j := by
  intro rs
  induction rs with
  | nil => intro es _; exact ⟨rfl, fun _ _ => rfl⟩
  | cons x rs ih =>
    intro es h
    obtain ⟨u, r⟩ := x
    have hu : pick u = k := h (u, r) List.mem_cons_self
    obtain ⟨h1, h2⟩ := ih (fun j => if j = pick u then (d r.min r.max (es (pick u))).2 else es j) fun y hy => h y (List.mem_cons_of_mem _ hy)
    simp only [draws, get]
    refine ⟨?_, fun j hj => ?_⟩
    · rw [h1, List.foldl_cons]; simp [hu]
    · rw [h2 j hj]; simp [hu, hj]

/-- C67 is false for programs of several translation units: a call that uses another unit's generator leaves the engine as
it was, so that two generators started alike give the same values again. -/
theorem C67_units_refuted (d : Dist V E) (r : Randomiser V) (e : E) :
    (draws d id [(0, r), (1, r)] (fun _ => e)).1 = [(d r.min r.max e).1, (d r.min r.max e).1] ∧
    (draws d id [(1, r)] (fun _ => e)).2 0 = e := by
  simp [draws, get]

example : (draws (fun a b (e : Nat) => (a + (e : Int) % (b - a + 1), e * 5 + 3)) (fun _ => 0) [(0, ⟨1, 6⟩), (0, ⟨10, 11⟩), (0, ⟨1, 6⟩)]
    (fun _ => 4)).1 = [5, 11, 5] := by decide +kernel

/-- C75 is false: deleting a randomiser of any class through a pointer to `RandomiserInterface` is undefined. -/
theorem C75_refuted (c : Nat) (h : c ≠ 0) : delete randomiserDtor 0 c = .ub .nonVirtualDelete := by
  simp [delete, randomiserDtor]
  exact fun e => h e.symm

/-- C75 holds for deletion through the object's own class. -/
theorem C75_own_partial (c : Nat) : delete randomiserDtor c c = .ok () := by simp [delete]

end Helper.Randomiser
