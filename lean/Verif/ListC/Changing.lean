import Verif.ListC.Props
set_option linter.unusedSectionVars false
/-!
# Property C124: functions that change the list they are applied to (container.hpp:106-125)

`apply` walks the list with a pair of iterators taken at the beginning; `elementwise` asks for the size and the element in every
pass. The function that they call may change the list, which it reaches in another way than through its argument.
-/
namespace Helper.ListC.Changing
open Helper.ListC

variable {α : Type u} {β : Type v} {γ : Type w} {σ : Type}

/-- A vector: `gen` tells the past-the-end iterators obtained at different times apart: it changes when they become invalid. -/
structure Vec (α : Type u) where
  els : List α
  cap : Nat
  gen : Nat
deriving DecidableEq, Repr

/-- What the function does to the vector. -/
inductive VOp (α : Type u) where
  /-- `l[i] = x` -/ | set (i : Nat) (x : α)
  | push (x : α)
  | pop
  | clear
  | reserve (n : Nat)
deriving DecidableEq, Repr

/-- The operations of `std::vector` ([vector.modifiers], [vector.capacity]); a full vector doubles its capacity. -/
def VOp.run : VOp α → Vec α → Res (Vec α)
  | .set i x, v => if i < v.els.length then .ok { v with els := v.els.set i x } else .ub .outOfBounds
  | .push x, v => .ok ⟨v.els ++ [x], if v.els.length < v.cap then v.cap else max 1 (2 * v.cap), v.gen + 1⟩
  | .pop, v => if v.els = [] then .ub .outOfBounds else .ok { v with els := v.els.dropLast, gen := v.gen + 1 }
  | .clear, v => .ok { v with els := [], gen := v.gen + 1 }
  | .reserve n, v => if v.cap < n then .ok { v with cap := n, gen := v.gen + 1 } else .ok v

def runOps : List (VOp α) → Vec α → Res (Vec α)
  | [], v => .ok v
  | o :: os, v =>
    match o.run v with
    | .ok v' => runOps os v'
    | r => r

/-- A function with a state: what it does to the vector, its result and its next state. It may look at the vector, and reads its argument
before it changes anything. -/
abbrev Fn (σ : Type) (α : Type u) (β : Type v) := α → σ → Vec α → List (VOp α) × Res β × σ

/-- A call: the changes, then the result. -/
def call (f : Fn σ α β) (x : α) (s : σ) (v : Vec α) : Res β × σ × Vec α :=
  match runOps (f x s v).1 v with
  | .ok v' => ((f x s v).2.1, (f x s v).2.2, v')
  | .ub k => (.ub k, s, v)
  | .exn e => (.exn e, s, v)
  | .abort => (.abort, s, v)

/-- Lines 106-110 `apply(f,lst)`: `for (auto itm : lst)` with the iterators of the beginning, of generation `g`; the last
argument is their distance. The iterator is compared with the end after every pass. -/
def applyLoop (f : Fn σ α β) (g : Nat) : Nat → List β → σ → Vec α → Nat → Res (List β) × σ × Vec α
  | _, res, s, v, 0 => if v.gen = g then (.ok res, s, v) else (.ub .dangling, s, v)
  | i, res, s, v, k + 1 =>
    if v.gen = g then
      match v.els[i]? with
      | none => (.ub .outOfBounds, s, v)
      | some x =>
        match call f x s v with
        | (.ok y, s', v') => applyLoop f g (i + 1) (res ++ [y]) s' v' k
        | (.exn e, s', v') => (.exn e, s', v')
        | (.ub u, s', v') => (.ub u, s', v')
        | (.abort, s', v') => (.abort, s', v')
    else (.ub .dangling, s, v)

def apply (f : Fn σ α β) (s : σ) (v : Vec α) : Res (List β) × σ × Vec α := applyLoop f v.gen 0 [] s v v.els.length

/-- Lines 112-117 `elementwise(f,l)`. The first argument bounds the passes; `none`: not finished. -/
def elementwiseLoop (f : Fn σ α β) : Nat → Nat → List β → σ → Vec α → Option (Res (List β) × σ × Vec α)
  | 0, _, _, _, _ => none
  | d + 1, i, r, s, v =>
    if i = v.els.length then some (.ok r, s, v)
    else
      match v.els[i]? with
      | none => some (.ub .outOfBounds, s, v)
      | some x =>
        match call f x s v with
        | (.ok y, s', v') => elementwiseLoop f d (i + 1) (r ++ [y]) s' v'
        | (.exn e, s', v') => some (.exn e, s', v')
        | (.ub u, s', v') => some (.ub u, s', v')
        | (.abort, s', v') => some (.abort, s', v')

def elementwise (f : Fn σ α β) (d : Nat) (s : σ) (v : Vec α) : Option (Res (List β) × σ × Vec α) := elementwiseLoop f d 0 [] s v

/-- A function of two elements, and what it does to either list. -/
abbrev Fn2 (σ : Type) (α : Type u) (β : Type v) (γ : Type w) :=
  α → β → σ → Vec α → Vec β → (List (VOp α) × List (VOp β)) × Res γ × σ

def call2 (f : Fn2 σ α β γ) (x : α) (y : β) (s : σ) (v : Vec α) (w : Vec β) : Res γ × σ × Vec α × Vec β :=
  match runOps (f x y s v w).1.1 v, runOps (f x y s v w).1.2 w with
  | .ok v', .ok w' => ((f x y s v w).2.1, (f x y s v w).2.2, v', w')
  | .ub k, _ => (.ub k, s, v, w)
  | _, .ub k => (.ub k, s, v, w)
  | _, _ => (.abort, s, v, w)

/-- Lines 119-125 `elementwise(f,l1,l2)` with different lists, the loop. -/
def elementwise2Loop (f : Fn2 σ α β γ) : Nat → Nat → List γ → σ → Vec α → Vec β → Option (Res (List γ) × σ × Vec α × Vec β)
  | 0, _, _, _, _, _ => none
  | d + 1, i, r, s, v, w =>
    if i = v.els.length then some (.ok r, s, v, w)
    else
      match v.els[i]?, w.els[i]? with
      | some x, some y =>
        match call2 f x y s v w with
        | (.ok z, s', v', w') => elementwise2Loop f d (i + 1) (r ++ [z]) s' v' w'
        | (.exn e, s', v', w') => some (.exn e, s', v', w')
        | (.ub u, s', v', w') => some (.ub u, s', v', w')
        | (.abort, s', v', w') => some (.abort, s', v', w')
      | _, _ => some (.ub .outOfBounds, s, v, w)

/-- Lines 119-125; the sizes are compared once, before the loop, and only without `NDEBUG`. -/
def elementwise2 (ndebug : Bool) (f : Fn2 σ α β γ) (d : Nat) (s : σ) (v : Vec α) (w : Vec β) :
    Option (Res (List γ) × σ × Vec α × Vec β) :=
  if !ndebug && v.els.length ≠ w.els.length then some (.abort, s, v, w) else elementwise2Loop f d 0 [] s v w

/-! ## What should happen -/

/-- From element `i` on, each element that the list has when its turn comes is given to the function, once. -/
inductive Visits (f : Fn σ α β) : Nat → σ → Vec α → List β → σ → Vec α → Prop
  | done {i s v} : i = v.els.length → Visits f i s v [] s v
  | next {i s v x y s1 v1 ys s2 v2} : v.els[i]? = some x → call f x s v = (.ok y, s1, v1) → Visits f (i + 1) s1 v1 ys s2 v2 →
      Visits f i s v (y :: ys) s2 v2

theorem Visits.length {f : Fn σ α β} {i : Nat} {s s' : σ} {v v' : Vec α} {ys : List β} (h : Visits f i s v ys s' v') :
    i + ys.length = v'.els.length := by
  induction h with
  | done h => simpa using h
  | next _ _ _ ih => simp only [List.length_cons]; omega

/-! ## Generations -/

theorem op_gen {o : VOp α} {v v' : Vec α} (h : o.run v = .ok v') : v.gen ≤ v'.gen ∧ (v'.gen = v.gen → v'.els.length = v.els.length) := by
  cases o with
  | set i x =>
    simp only [VOp.run] at h
    split at h
    · cases h; exact ⟨Nat.le_refl _, fun _ => by simp⟩
    · cases h
  | push x => simp only [VOp.run] at h; cases h; exact ⟨Nat.le_succ _, fun h => by simp at h⟩
  | pop =>
    simp only [VOp.run] at h
    split at h
    · cases h
    · cases h; exact ⟨Nat.le_succ _, fun h => by simp at h⟩
  | clear => simp only [VOp.run] at h; cases h; exact ⟨Nat.le_succ _, fun h => by simp at h⟩
  | reserve n =>
    simp only [VOp.run] at h
    split at h
    · cases h; exact ⟨Nat.le_succ _, fun h => by simp at h⟩
    · cases h; exact ⟨Nat.le_refl _, fun _ => rfl⟩

theorem ops_gen : ∀ {os : List (VOp α)} {v v' : Vec α}, runOps os v = .ok v' →
    v.gen ≤ v'.gen ∧ (v'.gen = v.gen → v'.els.length = v.els.length)
  | [], v, v', h => by simp only [runOps] at h; cases h; exact ⟨Nat.le_refl _, fun _ => rfl⟩
  | o :: os, v, v', h => by
    simp only [runOps] at h
    cases h1 : o.run v with
    | ok v1 =>
      rw [h1] at h
      obtain ⟨a, b⟩ := op_gen h1
      obtain ⟨c, d⟩ := ops_gen h
      exact ⟨Nat.le_trans a c, fun e => by rw [d (by omega), b (by omega)]⟩
    | exn _ => rw [h1] at h; cases h
    | ub _ => rw [h1] at h; cases h
    | abort => rw [h1] at h; cases h

theorem call_gen {f : Fn σ α β} {x : α} {s s' : σ} {v v' : Vec α} {y : β} (h : call f x s v = (.ok y, s', v')) :
    v.gen ≤ v'.gen ∧ (v'.gen = v.gen → v'.els.length = v.els.length) := by
  unfold call at h
  cases h1 : runOps (f x s v).1 v with
  | ok v1 => rw [h1] at h; simp only [Prod.mk.injEq] at h; rw [← h.2.2]; exact ops_gen h1
  | exn _ => rw [h1] at h; cases h
  | ub _ => rw [h1] at h; cases h
  | abort => rw [h1] at h; cases h

theorem Visits.gen {f : Fn σ α β} {i : Nat} {s s' : σ} {v v' : Vec α} {ys : List β} (h : Visits f i s v ys s' v') :
    v.gen ≤ v'.gen := by
  induction h with
  | done _ => exact Nat.le_refl _
  | next _ hc _ ih => exact Nat.le_trans (call_gen hc).1 ih

/-! ## Property C124 -/

theorem loop_iff (f : Fn σ α β) {ys : List β} {s' : σ} {v' : Vec α} : ∀ (d i : Nat) (r : List β) (s : σ) (v : Vec α),
    elementwiseLoop f d i r s v = some (.ok ys, s', v') → ∃ zs, ys = r ++ zs ∧ Visits f i s v zs s' v' := by
  intro d
  induction d with
  | zero => intro i r s v h; simp [elementwiseLoop] at h
  | succ d ih =>
    intro i r s v h
    simp only [elementwiseLoop] at h
    split at h
    · rename_i hi; cases h; exact ⟨[], by simp, .done hi⟩
    · cases hx : v.els[i]? with
      | none => rw [hx] at h; cases h
      | some x =>
        rw [hx] at h
        simp only at h
        match hc : call f x s v with
        | (.ok y, s1, v1) =>
          rw [hc] at h
          obtain ⟨zs, h1, h2⟩ := ih _ _ _ _ h
          exact ⟨y :: zs, by simp [h1], .next hx hc h2⟩
        | (.exn e, s1, v1) => rw [hc] at h; cases h
        | (.ub k, s1, v1) => rw [hc] at h; cases h
        | (.abort, s1, v1) => rw [hc] at h; cases h

theorem loop_of_visits {f : Fn σ α β} {i : Nat} {s s' : σ} {v v' : Vec α} {ys : List β} (h : Visits f i s v ys s' v') :
    ∀ (r : List β) (d : Nat), ys.length < d → elementwiseLoop f d i r s v = some (.ok (r ++ ys), s', v') := by
  induction h with
  | done h =>
    intro r d hd
    obtain ⟨d, rfl⟩ : ∃ k, d = k + 1 := ⟨d - 1, by omega⟩
    simp [elementwiseLoop, h]
  | @next i s v x y s1 v1 ys s2 v2 hx hc _ ih =>
    intro r d hd
    obtain ⟨d, rfl⟩ : ∃ k, d = k + 1 := ⟨d - 1, by omega⟩
    have hi := (List.getElem?_eq_some_iff.1 hx).1
    simp only [elementwiseLoop, if_neg (show ¬ i = v.els.length by omega), hx, hc]
    rw [ih _ d (by simpa using hd)]
    simp

/-- `elementwise` ends and returns `ys` exactly if each element that the list has when its turn comes, appended ones included, is given to
the function once, with these results. -/
theorem C124_elementwise (f : Fn σ α β) (s s' : σ) (v v' : Vec α) (ys : List β) :
    (∃ d, elementwise f d s v = some (.ok ys, s', v')) ↔ Visits f 0 s v ys s' v' := by
  constructor
  · rintro ⟨d, h⟩
    obtain ⟨zs, h1, h2⟩ := loop_iff f d 0 [] s v h
    simp only [List.nil_append] at h1
    exact h1 ▸ h2
  · intro h
    exact ⟨ys.length + 1, by simpa [elementwise] using loop_of_visits h [] _ (Nat.lt_succ_self _)⟩

/-- Then there are as many results as the list has elements in the end. -/
theorem C124_length (f : Fn σ α β) (s s' : σ) (v v' : Vec α) (ys : List β) (d : Nat) (h : elementwise f d s v = some (.ok ys, s', v')) :
    ys.length = v'.els.length := by
  have := ((C124_elementwise f s s' v v' ys).1 ⟨d, h⟩).length
  omega

theorem apply_visits (f : Fn σ α β) {ys : List β} {s' : σ} {v' : Vec α} {g : Nat} : ∀ (k i : Nat) (r : List β) (s : σ) (v : Vec α),
    (v.gen = g → i + k = v.els.length) → applyLoop f g i r s v k = (.ok ys, s', v') →
    ∃ zs, ys = r ++ zs ∧ Visits f i s v zs s' v' ∧ v'.gen = g := by
  intro k
  induction k with
  | zero =>
    intro i r s v hk h
    simp only [applyLoop] at h
    split at h
    · rename_i hg; cases h; exact ⟨[], by simp, .done (by simpa using hk hg), hg⟩
    · cases h
  | succ k ih =>
    intro i r s v hk h
    simp only [applyLoop] at h
    split at h
    · rename_i hg
      cases hx : v.els[i]? with
      | none => rw [hx] at h; cases h
      | some x =>
        rw [hx] at h
        simp only at h
        match hc : call f x s v with
        | (.ok y, s1, v1) =>
          rw [hc] at h
          obtain ⟨zs, h1, h2, h3⟩ := ih _ _ _ _ (fun e => by rw [(call_gen hc).2 (by omega)]; have := hk hg; omega) h
          exact ⟨y :: zs, by simp [h1], .next hx hc h2, h3⟩
        | (.exn e, s1, v1) => rw [hc] at h; cases h
        | (.ub k, s1, v1) => rw [hc] at h; cases h
        | (.abort, s1, v1) => rw [hc] at h; cases h
    · cases h

theorem apply_of_visits {f : Fn σ α β} {i : Nat} {s s' : σ} {v v' : Vec α} {ys : List β} (h : Visits f i s v ys s' v') :
    ∀ (r : List β) (k : Nat), i + k = v.els.length → v'.gen = v.gen →
      applyLoop f v.gen i r s v k = (.ok (r ++ ys), s', v') := by
  induction h with
  | done h =>
    intro r k hk _
    obtain rfl : k = 0 := by omega
    simp [applyLoop]
  | @next i s v x y s1 v1 ys s2 v2 hx hc hv ih =>
    intro r k hk hg
    have hi := (List.getElem?_eq_some_iff.1 hx).1
    obtain ⟨k, rfl⟩ : ∃ j, k = j + 1 := ⟨k - 1, by omega⟩
    have h1 := call_gen hc
    have h2 := hv.gen
    have h3 : v1.gen = v.gen := by omega
    simp only [applyLoop, if_true, hx, hc]
    rw [← h3, ih (r ++ [y]) k (by rw [h1.2 h3]; omega) (by omega)]
    simp

/-- `apply` does the same, but only if the function does nothing that invalidates iterators; otherwise it never returns normally. -/
theorem C124_apply_partial (f : Fn σ α β) (s s' : σ) (v v' : Vec α) (ys : List β) :
    apply f s v = (.ok ys, s', v') ↔ Visits f 0 s v ys s' v' ∧ v'.gen = v.gen := by
  constructor
  · intro h
    obtain ⟨zs, h1, h2, h3⟩ := apply_visits f v.els.length 0 [] s v (fun _ => by omega) h
    simp only [List.nil_append] at h1
    exact ⟨h1 ▸ h2, h3⟩
  · rintro ⟨h1, h2⟩
    simpa [apply] using apply_of_visits h1 [] v.els.length (by omega) h2

theorem sets_run : ∀ (os : List (VOp α)) (v : Vec α), (∀ o ∈ os, ∃ i x, o = .set i x ∧ i < v.els.length) →
    ∃ v', runOps os v = .ok v' ∧ v'.gen = v.gen ∧ v'.els.length = v.els.length
  | [], v, _ => ⟨v, rfl, rfl, rfl⟩
  | o :: os, v, h => by
    obtain ⟨i, x, rfl, hi⟩ := h o (by simp)
    obtain ⟨v', h1, h2, h3⟩ := sets_run os { v with els := v.els.set i x } (fun o ho => by
      obtain ⟨j, z, e, hj⟩ := h o (by simp [ho])
      exact ⟨j, z, e, by simpa using hj⟩)
    exact ⟨v', by simp only [runOps, VOp.run, if_pos hi]; exact h1, h2, by simpa using h3⟩

/-- A function that only assigns to elements, and returns, can be given to both, with the same effect. -/
theorem C124_assign (f : Fn σ α β) (hf : ∀ x s v, (∀ o ∈ (f x s v).1, ∃ i z, o = .set i z ∧ i < v.els.length) ∧ ∃ y, (f x s v).2.1 = .ok y)
    (s : σ) (v : Vec α) : ∃ ys s' v', apply f s v = (.ok ys, s', v') ∧ elementwise f (v.els.length + 1) s v = some (.ok ys, s', v') ∧
      ys.length = v.els.length := by
  have key : ∀ (k i : Nat) (s : σ) (v : Vec α), i + k = v.els.length → ∃ ys s' v', Visits f i s v ys s' v' ∧ v'.gen = v.gen ∧
      v'.els.length = v.els.length := by
    intro k
    induction k with
    | zero => intro i s v h; exact ⟨[], s, v, .done h, rfl, rfl⟩
    | succ k ih =>
      intro i s v h
      have hi : i < v.els.length := by omega
      obtain ⟨h1, y, h2⟩ := hf v.els[i] s v
      obtain ⟨v1, h3, h4, h5⟩ := sets_run _ v h1
      obtain ⟨ys, s', v', h6, h7, h8⟩ := ih (i + 1) (f v.els[i] s v).2.2 v1 (by omega)
      refine ⟨y :: ys, s', v', .next (List.getElem?_eq_getElem hi) ?_ h6, by omega, by omega⟩
      simp only [call, h3, h2]
  obtain ⟨ys, s', v', h1, h2, h3⟩ := key v.els.length 0 s v (by omega)
  have hl := h1.length
  refine ⟨ys, s', v', (C124_apply_partial f s s' v v' ys).2 ⟨h1, h2⟩, ?_, by omega⟩
  simpa [elementwise] using loop_of_visits h1 [] (v.els.length + 1) (by omega)

/-- `apply` is undefined as soon as a call has changed the size of the list or reallocated it. -/
theorem C124_apply_refuted (f : Fn σ α β) (s s' : σ) (v v' : Vec α) (x : α) (l : List α) (y : β) (hv : v.els = x :: l)
    (hc : call f x s v = (.ok y, s', v')) (hg : v'.gen ≠ v.gen) : apply f s v = (.ub .dangling, s', v') := by
  simp only [apply, hv, List.length_cons, applyLoop, if_true, List.getElem?_cons_zero, hc]
  cases l <;> simp [applyLoop, hg]

/-- `elementwise` reads beyond the end once the list has become shorter than the part that has been visited. -/
theorem C124_shrink_refuted (f : Fn σ α β) (d i : Nat) (r : List β) (s s' : σ) (v v' : Vec α) (x : α) (y : β) (hx : v.els[i]? = some x)
    (hc : call f x s v = (.ok y, s', v')) (hl : v'.els.length ≤ i) :
    elementwiseLoop f (d + 2) i r s v = some (.ub .outOfBounds, s', v') := by
  have hi := (List.getElem?_eq_some_iff.1 hx).1
  simp only [elementwiseLoop, if_neg (show ¬ i = v.els.length by omega), hx, hc,
    if_neg (show ¬ i + 1 = v'.els.length by omega), List.getElem?_eq_none (show v'.els.length ≤ i + 1 by omega)]

/-- A function that appends an element in each call makes `elementwise` go on for ever. -/
theorem C124_append_refuted (f : Fn σ α β) (hf : ∀ x s v, (∃ z, (f x s v).1 = [.push z]) ∧ ∃ y, (f x s v).2.1 = .ok y)
    (s : σ) (v : Vec α) (hv : v.els ≠ []) (d : Nat) : elementwise f d s v = none := by
  have key : ∀ (d i : Nat) (r : List β) (s : σ) (v : Vec α), i < v.els.length → elementwiseLoop f d i r s v = none := by
    intro d
    induction d with
    | zero => intros; rfl
    | succ d ih =>
      intro i r s v hi
      obtain ⟨⟨z, h1⟩, y, h2⟩ := hf v.els[i] s v
      simp only [elementwiseLoop, if_neg (show ¬ i = v.els.length by omega), List.getElem?_eq_getElem hi, call, h1, h2, runOps, VOp.run]
      apply ih
      simp; omega
  exact key d 0 [] s v (List.length_pos_iff.2 hv)

/-- The same for two lists: element `i` of the one with element `i` of the other, up to the end of the first list. -/
inductive Visits2 (f : Fn2 σ α β γ) : Nat → σ → Vec α → Vec β → List γ → σ → Vec α → Vec β → Prop
  | done {i s v w} : i = v.els.length → Visits2 f i s v w [] s v w
  | next {i s v w x y z s1 v1 w1 zs s2 v2 w2} : v.els[i]? = some x → w.els[i]? = some y → call2 f x y s v w = (.ok z, s1, v1, w1) →
      Visits2 f (i + 1) s1 v1 w1 zs s2 v2 w2 → Visits2 f i s v w (z :: zs) s2 v2 w2

theorem C124_two (ndebug : Bool) (f : Fn2 σ α β γ) (s s' : σ) (v v' : Vec α) (w w' : Vec β) (zs : List γ) (hl : v.els.length = w.els.length) :
    (∃ d, elementwise2 ndebug f d s v w = some (.ok zs, s', v', w')) ↔ Visits2 f 0 s v w zs s' v' w' := by
  have e : ∀ d, elementwise2 ndebug f d s v w = elementwise2Loop f d 0 [] s v w := fun d => by simp [elementwise2, hl]
  simp only [e]
  constructor
  · rintro ⟨d, h⟩
    have key : ∀ (d i : Nat) (r : List γ) (s : σ) (v : Vec α) (w : Vec β), elementwise2Loop f d i r s v w = some (.ok zs, s', v', w') →
        ∃ ys, zs = r ++ ys ∧ Visits2 f i s v w ys s' v' w' := by
      intro d
      induction d with
      | zero => intro i r s v w h; simp [elementwise2Loop] at h
      | succ d ih =>
        intro i r s v w h
        simp only [elementwise2Loop] at h
        split at h
        · rename_i hi; cases h; exact ⟨[], by simp, .done hi⟩
        · cases hx : v.els[i]? with
          | none => rw [hx] at h; cases h
          | some x =>
            cases hy : w.els[i]? with
            | none => rw [hx, hy] at h; cases h
            | some y =>
              rw [hx, hy] at h
              simp only at h
              match hc : call2 f x y s v w with
              | (.ok z, s1, v1, w1) =>
                rw [hc] at h
                obtain ⟨ys, h1, h2⟩ := ih _ _ _ _ _ h
                exact ⟨z :: ys, by simp [h1], .next hx hy hc h2⟩
              | (.exn e, s1, v1, w1) => rw [hc] at h; cases h
              | (.ub k, s1, v1, w1) => rw [hc] at h; cases h
              | (.abort, s1, v1, w1) => rw [hc] at h; cases h
    obtain ⟨ys, h1, h2⟩ := key d 0 [] s v w h
    simp only [List.nil_append] at h1
    exact h1 ▸ h2
  · intro h
    have key : ∀ {i s v w zs s' v' w'}, Visits2 f i s v w zs s' v' w' → ∀ (r : List γ),
        elementwise2Loop f (zs.length + 1) i r s v w = some (.ok (r ++ zs), s', v', w') := by
      intro i s v w zs s' v' w' h
      induction h with
      | done h => intro r; simp [elementwise2Loop, h]
      | @next i s v w x y z s1 v1 w1 zs s2 v2 w2 hx hy hc _ ih =>
        intro r
        have hi := (List.getElem?_eq_some_iff.1 hx).1
        rw [List.length_cons, elementwise2Loop]
        simp only [if_neg (show ¬ i = v.els.length by omega), hx, hy, hc]
        rw [ih]
        simp
    exact ⟨_, by simpa using key h []⟩

/-- With two lists, the second may not become shorter than the first: the assertion does not help. -/
theorem C124_two_refuted (ndebug : Bool) (f : Fn2 σ α β γ) (d : Nat) (s s' : σ) (v v' : Vec α) (w w' : Vec β) (x : α) (y : β)
    (l : List α) (m : List β) (z : γ) (os : List (VOp α)) (ps : List (VOp β)) (hv : v.els = x :: l) (hw : w.els = y :: m)
    (hl : l.length = m.length) (hf : f x y s v w = ((os, ps), .ok z, s')) (ho : runOps os v = .ok v') (hp : runOps ps w = .ok w')
    (hl' : 1 < v'.els.length) (hm' : w'.els.length ≤ 1) :
    elementwise2 ndebug f (d + 2) s v w = some (.ub .outOfBounds, s', v', w') := by
  have hc : call2 f x y s v w = (.ok z, s', v', w') := by simp [call2, hf, ho, hp]
  have h1 : v'.els[1]? = some v'.els[1] := List.getElem?_eq_getElem hl'
  have h2 : w'.els[1]? = none := List.getElem?_eq_none hm'
  simp [elementwise2, hv, hw, hl, elementwise2Loop, hc, h1, h2, show ¬ 1 = v'.els.length by omega]

/-! ## Examples -/

/-- The next element is set to the sum; the results are running sums. -/
def sums : Fn Nat Nat Nat := fun x i v => (if i + 1 < v.els.length then [.set (i + 1) (x + v.els.getD (i + 1) 0)] else [], .ok x, i + 1)

example : apply sums 0 ⟨[1, 2, 3], 3, 0⟩ = (.ok [1, 3, 6], 3, ⟨[1, 3, 6], 3, 0⟩) ∧
    elementwise sums 4 0 ⟨[1, 2, 3], 3, 0⟩ = some (.ok [1, 3, 6], 3, ⟨[1, 3, 6], 3, 0⟩) := by decide +kernel

/-- One element is appended, for the first element that is 0. -/
def extend : Fn Unit Nat Nat := fun x _ _ => (if x = 0 then [.push 7] else [], .ok (x + 1), ())

example : elementwise extend 9 () ⟨[1, 0, 2], 3, 0⟩ = some (.ok [2, 1, 3, 8], (), ⟨[1, 0, 2, 7], 6, 1⟩) ∧
    apply extend () ⟨[1, 0, 2], 3, 0⟩ = (.ub .dangling, (), ⟨[1, 0, 2, 7], 6, 1⟩) := by decide +kernel

/-- The last element is removed: from a list of two the second is not visited; a list of three ends too early. -/
def shorten : Fn Unit Nat Nat := fun x _ _ => ([.pop], .ok x, ())

example : elementwise shorten 9 () ⟨[1, 2], 3, 0⟩ = some (.ok [1], (), ⟨[1], 3, 1⟩) ∧
    elementwise shorten 9 () ⟨[1, 2, 3], 3, 0⟩ = some (.ub .outOfBounds, (), ⟨[1], 3, 2⟩) := by decide +kernel

/-- Reserving more storage changes no element, but is not allowed in `apply`. -/
example : apply (β := Nat) (fun x (_ : Unit) _ => ([.reserve 10], .ok x, ())) () ⟨[1], 1, 0⟩ = (.ub .dangling, (), ⟨[1], 10, 1⟩) ∧
    apply (β := Nat) (fun x (_ : Unit) _ => ([.reserve 1], .ok x, ())) () ⟨[1], 1, 0⟩ = (.ok [1], (), ⟨[1], 1, 0⟩) := by
  decide +kernel

example : elementwise2 (γ := Nat) false (fun x y (_ : Unit) _ _ => (([], [.pop]), .ok (x + y), ())) 9 () ⟨[1, 2], 2, 0⟩ ⟨[5, 6], 2, 0⟩ =
    some (.ub .outOfBounds, (), ⟨[1, 2], 2, 0⟩, ⟨[5], 2, 1⟩) := by decide +kernel

end Helper.ListC.Changing
