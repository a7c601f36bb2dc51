import Verif.Lazy.Lemmas
/-!
# Properties C48, C49, C51 and C71: Lazy
-/
namespace Helper.Lazy

/-- Variable `x` exists and has not been evaluated successfully. -/
def Fresh (w : World) (x : Nat) : Prop := w.get x = some ⟨true, none⟩

/-- Variable `x` exists and holds object `k`. -/
def Holds (w : World) (x k : Nat) : Prop := ∃ b, w.get x = some ⟨b, some k⟩

/-- C48: only an evaluation calls the factory, at most once, on behalf of the variable evaluated. In
particular construction calls nothing. -/
theorem C48_onlyEval (f : Nat → Outcome) (o : Op) (w : World) :
    ((∀ x, o ≠ .eval x) → (step f o w).2.calls = w.calls) ∧
    (∀ x, o = .eval x → (step f o w).2.calls = w.calls ∨ (step f o w).2.calls = w.calls ++ [x]) := by
  constructor
  · intro h
    rcases step_calls f w o with hc | ⟨x, hx, _⟩
    · exact hc
    · exact absurd hx (h x)
  · intro x hx
    rcases step_calls f w o with hc | ⟨y, hy, hc⟩
    · exact .inl hc
    · rw [hx] at hy; cases hy; exact .inr hc

/-- C48: a constructed Lazy has not been evaluated. -/
theorem C48_construct (f : Nat → Outcome) (w : World) :
    (step f (.construct true) w).1 = .ok none ∧ Fresh (step f (.construct true) w).2 w.lz.length ∧
    (step f (.construct true) w).2.calls = w.calls := by
  refine ⟨rfl, ?_, rfl⟩
  simp only [Fresh, step]
  rw [get_append, if_pos rfl]

/-- C48, C49: a Lazy can be constructed from an empty function; each evaluation then throws `std::bad_function_call`, calls nothing and
changes nothing. -/
theorem C49_empty (f : Nat → Outcome) (w : World) :
    (step f (.construct false) w).1 = .ok none ∧ (step f (.construct false) w).2.calls = w.calls ∧
    step f (.eval w.lz.length) (step f (.construct false) w).2 = (.exn .badFunctionCall, (step f (.construct false) w).2) := by
  refine ⟨rfl, rfl, ?_⟩
  have : (step f (.construct false) w).2.get w.lz.length = some ⟨false, none⟩ := by
    simp only [step]
    rw [get_append, if_pos rfl]
  generalize (step f (.construct false) w).2 = w' at this
  simp [step, eval, this]

/-- C48: the first evaluation calls the factory once; the object is returned and kept. -/
theorem C48_first (f : Nat → Outcome) (w : World) (x : Nat) (hx : Fresh w x) (hf : f w.calls.length = .obj) :
    (step f (.eval x) w).1 = .ok (some w.calls.length) ∧ (step f (.eval x) w).2.calls = w.calls ++ [x] ∧
    Holds (step f (.eval x) w).2 x w.calls.length := by
  have hx' : w.get x = some ⟨true, none⟩ := hx
  have : eval f x w = (.ok w.calls.length,
      World.set { w with calls := w.calls ++ [x] } x (some ⟨true, some w.calls.length⟩)) := by
    simp [eval, hx', hf]
  simp only [step, this]
  refine ⟨trivial, rfl, true, ?_⟩
  rw [get_set (by exact get_lt hx'), if_pos rfl]

theorem eval_holds {f : Nat → Outcome} {w : World} {x k : Nat} (h : Holds w x k) :
    step f (.eval x) w = (.ok (some k), w) := by
  obtain ⟨b, hb⟩ := h
  simp [step, eval, hb]

theorem step_holds {f : Nat → Outcome} {w : World} {x k : Nat} (h : Holds w x k) {o : Op} (ht : touches x o = false) :
    Holds (step f o w).2 x k ∧ (step f o w).2.calls.count x = w.calls.count x := by
  by_cases he : o = .eval x
  · subst he; rw [eval_holds h]; exact ⟨h, rfl⟩
  · obtain ⟨b, hb⟩ := h
    refine ⟨⟨b, by rw [step_get f w (get_lt hb) ht he]; exact hb⟩, ?_⟩
    rcases step_calls f w o with hc | ⟨y, hy, hc⟩
    · rw [hc]
    · rw [hc, List.count_append, List.count_singleton]
      have : y ≠ x := fun e => he (by rw [hy, e])
      simp [this]

theorem run_holds {f : Nat → Outcome} {x k : Nat} : ∀ (os : List Op) {w : World}, Holds w x k →
    (∀ o ∈ os, touches x o = false) →
    Holds (run f os w).2 x k ∧ (run f os w).2.calls.count x = w.calls.count x := by
  intro os
  induction os with
  | nil => intro w h _; exact ⟨h, rfl⟩
  | cons o os ih =>
    intro w h ht
    have h1 := step_holds (f := f) h (ht o List.mem_cons_self)
    rw [run]
    generalize step f o w = r at h1
    obtain ⟨r1, w'⟩ := r
    have h2 := ih h1.1 fun o' ho' => ht o' (List.mem_cons_of_mem _ ho')
    cases r1 with
    | ub u => exact h1
    | ok a => exact ⟨h2.1, h2.2.trans h1.2⟩
    | exn e => exact ⟨h2.1, h2.2.trans h1.2⟩
    | abort => exact ⟨h2.1, h2.2.trans h1.2⟩

/-- C48: once evaluated, a Lazy returns the same object for ever and makes no further call: in any
history, with any number of evaluations, that does not assign to, move from or destroy it. The object has
not been deleted, if the state was reached from the beginning. -/
theorem C48_later (f : Nat → Outcome) (w : World) (x k : Nat) (h : Holds w x k) (os : List Op)
    (hos : ∀ o ∈ os, touches x o = false) :
    (run f os w).2.calls.count x = w.calls.count x ∧
    step f (.eval x) (run f os w).2 = (.ok (some k), (run f os w).2) ∧
    (Inv f w → k ∉ (run f os w).2.deleted) := by
  have hr := run_holds (f := f) os h hos
  refine ⟨hr.2, eval_holds hr.1, fun hi => ?_⟩
  obtain ⟨b, hb⟩ := hr.1
  exact ((run_inv os hi).held k ⟨x, _, hb, rfl⟩).1

/-- The invariant used in `C48_later` holds in every reachable state. -/
theorem C48_reachable (f : Nat → Outcome) (os : List Op) : Inv f (run f os World.init).2 := run_inv os (init_inv f)

/-! ## C49 -/

/-- The exception of a failing factory call. -/
def failure : Outcome → Option Exn
  | .throws e => some e
  | .noBlock => some .badAlloc
  | _ => none

theorem eval_fails {f : Nat → Outcome} {w : World} {x : Nat} {e : Exn} (hx : Fresh w x)
    (hf : failure (f w.calls.length) = some e) :
    (step f (.eval x) w).1 = .exn e ∧ (step f (.eval x) w).2.calls = w.calls ++ [x] ∧
    Fresh (step f (.eval x) w).2 x := by
  have hx' : w.get x = some ⟨true, none⟩ := hx
  cases ho : f w.calls.length with
  | obj => simp [ho, failure] at hf
  | null => simp [ho, failure] at hf
  | throws e' =>
    simp only [ho, failure, Option.some.injEq] at hf; subst hf
    simp [step, eval, hx', ho]
    exact hx'
  | noBlock =>
    simp only [ho, failure, Option.some.injEq] at hf; subst hf
    simp [step, eval, hx', ho]
    exact hx'

theorem run_cons_exn {f : Nat → Outcome} {o : Op} {os : List Op} {w : World} {e : Exn}
    (h : (step f o w).1 = .exn e) :
    run f (o :: os) w = (.exn e :: (run f os (step f o w).2).1, (run f os (step f o w).2).2) := by
  rw [run]
  generalize step f o w = r at h
  obtain ⟨r1, w'⟩ := r
  simp only at h; subst h; rfl

theorem run_cons_ok {f : Nat → Outcome} {o : Op} {os : List Op} {w : World} {a : Option Nat}
    (h : (step f o w).1 = .ok a) :
    run f (o :: os) w = (.ok a :: (run f os (step f o w).2).1, (run f os (step f o w).2).2) := by
  rw [run]
  generalize step f o w = r at h
  obtain ⟨r1, w'⟩ := r
  simp only at h; subst h; rfl

theorem run_holding {f : Nat → Outcome} {x k : Nat} {w : World} (h : Holds w x k) : ∀ n,
    run f (List.replicate n (.eval x)) w = (List.replicate n (.ok (some k)), w) := by
  intro n
  induction n with
  | zero => rfl
  | succ n ih =>
    have he := eval_holds (f := f) h
    rw [List.replicate_succ, run_cons_ok (a := some k) (by rw [he]), he, ih]
    rfl

/-- C49: with failures before the first success, each evaluation passes on the failure and the next one
tries again; the first object made is returned by that evaluation and all later ones, without further
calls. `es` are the exceptions of the failing calls, in order. -/
theorem C49_retries (f : Nat → Outcome) (x n : Nat) : ∀ (es : List Exn) (w : World), Fresh w x →
    (∀ i (h : i < es.length), failure (f (w.calls.length + i)) = some es[i]) →
    f (w.calls.length + es.length) = .obj →
    (run f (List.replicate (es.length + (n + 1)) (.eval x)) w).1 =
      es.map .exn ++ List.replicate (n + 1) (.ok (some (w.calls.length + es.length))) ∧
    (run f (List.replicate (es.length + (n + 1)) (.eval x)) w).2.calls = w.calls ++ List.replicate (es.length + 1) x := by
  intro es
  induction es with
  | nil =>
    intro w hx _ hf
    have h1 := C48_first f w x hx hf
    rw [List.length_nil, Nat.zero_add, List.replicate_succ, run_cons_ok h1.1, run_holding h1.2.2]
    exact ⟨rfl, h1.2.1⟩
  | cons e es ih =>
    intro w hx he hf
    have h0 : failure (f w.calls.length) = some e := he 0 (by simp)
    have h1 := eval_fails hx h0
    have hlen : (step f (.eval x) w).2.calls.length = w.calls.length + 1 := by simp [h1.2.1]
    have := ih (step f (.eval x) w).2 h1.2.2
      (fun i hi => by
        have := he (i + 1) (by simp; omega)
        rw [hlen, show w.calls.length + 1 + i = w.calls.length + (i + 1) from by omega, this]
        simp)
      (by rw [hlen]; rw [← hf]; congr 1; simp; omega)
    rw [show (e :: es).length + (n + 1) = (es.length + (n + 1)) + 1 from by simp; omega, List.replicate_succ,
      run_cons_exn h1.1]
    rw [this.1, this.2, hlen, h1.2.1]
    refine ⟨?_, ?_⟩
    · simp; omega
    · simp [List.replicate_succ]

/-- C49: while the factory fails, every evaluation calls it and passes on the failure. -/
theorem C49_failing (f : Nat → Outcome) (x : Nat) : ∀ (es : List Exn) (w : World), Fresh w x →
    (∀ i (h : i < es.length), failure (f (w.calls.length + i)) = some es[i]) →
    (run f (List.replicate es.length (.eval x)) w).1 = es.map .exn ∧
    (run f (List.replicate es.length (.eval x)) w).2.calls = w.calls ++ List.replicate es.length x ∧
    Fresh (run f (List.replicate es.length (.eval x)) w).2 x := by
  intro es
  induction es with
  | nil => intro w hx _; exact ⟨rfl, by simp [run], hx⟩
  | cons e es ih =>
    intro w hx he
    have h1 := eval_fails hx (he 0 (by simp))
    have hlen : (step f (.eval x) w).2.calls.length = w.calls.length + 1 := by simp [h1.2.1]
    have := ih (step f (.eval x) w).2 h1.2.2
      (fun i hi => by
        have := he (i + 1) (by simp; omega)
        rw [hlen, show w.calls.length + 1 + i = w.calls.length + (i + 1) from by omega, this]
        simp)
    rw [List.length_cons, List.replicate_succ, run_cons_exn h1.1]
    refine ⟨by simp [this.1], by rw [this.2.1, h1.2.1]; simp [List.replicate_succ], this.2.2⟩

/-- C49: a factory returning a null pointer: undefined. -/
theorem C49_null (f : Nat → Outcome) (w : World) (x : Nat) (hx : Fresh w x) (hf : f w.calls.length = .null) :
    (step f (.eval x) w).1 = .ub .nullDeref := by
  have hx' : w.get x = some ⟨true, none⟩ := hx
  simp [step, eval, hx', hf]

/-- C49: an evaluation of a live Lazy is undefined only for a null pointer. -/
theorem C49_defined (f : Nat → Outcome) (w : World) (x : Nat) (z : Lz) (hx : w.get x = some z)
    (hf : f w.calls.length ≠ .null) (u : UB) : (step f (.eval x) w).1 ≠ .ub u := by
  simp only [step, eval, hx]
  cases z.obj with
  | some k => simp
  | none =>
    cases z.func with
    | false => simp
    | true =>
      cases h : f w.calls.length with
      | null => exact absurd h hf
      | obj => simp
      | throws e => simp
      | noBlock => simp

/-! ## C51 -/

/-- C51: a copy of an evaluated Lazy holds the same object. -/
theorem C51_after (f : Nat → Outcome) (w : World) (y k : Nat) (h : Holds w y k) :
    (step f (.copy y) w).1 = .ok none ∧ Holds (step f (.copy y) w).2 w.lz.length k ∧
    (step f (.copy y) w).2.calls = w.calls ∧
    (∀ x z, w.get x = some z → Holds (step f (.assign x y) w).2 x k ∧ (step f (.assign x y) w).2.calls = w.calls) := by
  obtain ⟨b, hb⟩ := h
  refine ⟨by simp [step, hb], ⟨b, ?_⟩, by simp [step, hb], fun x z hx => ⟨⟨b, ?_⟩, ?_⟩⟩
  · simp only [step, hb]; rw [get_append, if_pos rfl]
  · simp only [step, hb, hx, drop_get]; rw [get_set (get_lt hx), if_pos rfl]
  · simp [step, hb, hx, World.set]

/-- C51: a copy of a Lazy that has not been evaluated has not been evaluated. -/
theorem C51_before (f : Nat → Outcome) (w : World) (y : Nat) (h : Fresh w y) :
    (step f (.copy y) w).1 = .ok none ∧ Fresh (step f (.copy y) w).2 w.lz.length ∧
    Fresh (step f (.copy y) w).2 y ∧ (step f (.copy y) w).2.calls = w.calls := by
  have h' : w.get y = some ⟨true, none⟩ := h
  have := get_lt h'
  refine ⟨by simp [step, h'], ?_, ?_, by simp [step, h']⟩
  · simp only [Fresh, step, h']; rw [get_append, if_pos rfl]
  · simp only [Fresh, step, h']; rw [get_append, if_neg (by omega)]; exact h'

/-- C51: with a factory that does not fail, a Lazy that has not been evaluated makes one call in any
history that evaluates it, none in one that does not; it then holds an object made in this history
by its own call. The history may do anything with other variables, copies of this one among them. -/
theorem C51_own (f : Nat → Outcome) (hf : ∀ k, f k = .obj) (x : Nat) : ∀ (os : List Op) (w : World),
    Fresh w x → (∀ o ∈ os, touches x o = false) → (∀ u, .ub u ∉ (run f os w).1) →
    if .eval x ∈ os then
      (run f os w).2.calls.count x = w.calls.count x + 1 ∧
      ∃ k, Holds (run f os w).2 x k ∧ w.calls.length ≤ k ∧ (run f os w).2.calls[k]? = some x
    else (run f os w).2.calls.count x = w.calls.count x ∧ Fresh (run f os w).2 x := by
  intro os
  induction os with
  | nil => intro w h _ _; simp [run, h]
  | cons o os ih =>
    intro w h ht hub
    have ht' : ∀ o' ∈ os, touches x o' = false := fun o' ho' => ht o' (List.mem_cons_of_mem _ ho')
    by_cases he : o = .eval x
    · subst he
      rw [if_pos List.mem_cons_self]
      have h1 := C48_first f w x h (hf _)
      rw [run_cons_ok h1.1]
      have hr := run_holds (f := f) os h1.2.2 ht'
      refine ⟨by rw [hr.2, h1.2.1]; simp, w.calls.length, hr.1, Nat.le_refl _, ?_⟩
      have pre : ∀ (os : List Op) (v : World), ∃ t, (run f os v).2.calls = v.calls ++ t := by
        intro os
        induction os with
        | nil => intro v; exact ⟨[], by simp [run]⟩
        | cons o os ih' =>
          intro v
          have hs : ∃ t, (step f o v).2.calls = v.calls ++ t := by
            rcases step_calls f v o with hc | ⟨y, _, hc⟩
            · exact ⟨[], by simp [hc]⟩
            · exact ⟨[y], hc⟩
          rw [run]
          generalize step f o v = r at hs
          obtain ⟨r1, v'⟩ := r
          obtain ⟨t, ht⟩ := hs
          obtain ⟨t', ht'⟩ := ih' v'
          simp only at ht
          cases r1 with
          | ub u => exact ⟨t, ht⟩
          | ok a => exact ⟨t ++ t', by simp only; rw [ht', ht, List.append_assoc]⟩
          | exn e => exact ⟨t ++ t', by simp only; rw [ht', ht, List.append_assoc]⟩
          | abort => exact ⟨t ++ t', by simp only; rw [ht', ht, List.append_assoc]⟩
      obtain ⟨t, hpre⟩ := pre os (step f (.eval x) w).2
      simp only
      rw [hpre, h1.2.1, List.append_assoc, List.getElem?_append_right (Nat.le_refl _)]
      simp
    · have hh : w.get x = some ⟨true, none⟩ := h
      have h1 : Fresh (step f o w).2 x := by
        rw [Fresh, step_get f w (get_lt hh) (ht o List.mem_cons_self) he]; exact hh
      have hc : (step f o w).2.calls.count x = w.calls.count x := by
        rcases step_calls f w o with hc | ⟨y, hy, hc⟩
        · rw [hc]
        · rw [hc, List.count_append, List.count_singleton]
          have : y ≠ x := fun e => he (by rw [hy, e])
          simp [this]
      have hl : w.calls.length ≤ (step f o w).2.calls.length := by
        rcases step_calls f w o with hc | ⟨y, _, hc⟩ <;> simp [hc]
      have hm : (.eval x ∈ o :: os) ↔ (.eval x ∈ os) := by
        simp only [List.mem_cons, or_iff_right_iff_imp]
        intro e; exact absurd e.symm he
      have hih := ih (step f o w).2 h1 ht'
      generalize hst : step f o w = r at hih hc hl
      obtain ⟨r1, w'⟩ := r
      rw [run, hst] at hub ⊢
      simp only at hc hih hl
      have fin : (∀ u, .ub u ∉ (run f os w').1) →
          if .eval x ∈ o :: os then (run f os w').2.calls.count x = w.calls.count x + 1 ∧
            ∃ k, Holds (run f os w').2 x k ∧ w.calls.length ≤ k ∧ (run f os w').2.calls[k]? = some x
          else (run f os w').2.calls.count x = w.calls.count x ∧ Fresh (run f os w').2 x := by
        intro hu
        have := hih hu
        by_cases hmem : .eval x ∈ os
        · rw [if_pos hmem] at this
          rw [if_pos (hm.2 hmem), this.1, hc]
          obtain ⟨k, hk1, hk2, hk3⟩ := this.2
          exact ⟨rfl, k, hk1, by omega, hk3⟩
        · rw [if_neg hmem] at this
          rw [if_neg (fun e => hmem (hm.1 e)), this.1, hc]
          exact ⟨rfl, this.2⟩
      cases r1 with
      | ub u => exact absurd List.mem_cons_self (hub u)
      | ok a => exact fin fun u hu => hub u (List.mem_cons_of_mem _ hu)
      | exn e => exact fin fun u hu => hub u (List.mem_cons_of_mem _ hu)
      | abort => exact fin fun u hu => hub u (List.mem_cons_of_mem _ hu)

/-- C51: two such variables end up with different objects, each made by its own call. -/
theorem C51_different (f : Nat → Outcome) (hf : ∀ k, f k = .obj) (x y : Nat) (hxy : x ≠ y) (os : List Op) (w : World)
    (hx : Fresh w x) (hy : Fresh w y) (ht : ∀ o ∈ os, touches x o = false ∧ touches y o = false)
    (hub : ∀ u, .ub u ∉ (run f os w).1) (hex : .eval x ∈ os) (hey : .eval y ∈ os) :
    ∃ k l, k ≠ l ∧ Holds (run f os w).2 x k ∧ Holds (run f os w).2 y l := by
  have h1 := C51_own f hf x os w hx (fun o ho => (ht o ho).1) hub
  have h2 := C51_own f hf y os w hy (fun o ho => (ht o ho).2) hub
  rw [if_pos hex] at h1
  rw [if_pos hey] at h2
  obtain ⟨_, k, hk, _, hck⟩ := h1
  obtain ⟨_, l, hl, _, hcl⟩ := h2
  refine ⟨k, l, ?_, hk, hl⟩
  rintro rfl
  rw [hck] at hcl
  exact hxy (Option.some.inj hcl)

/-- C51: moving hands over function and object; the source is left without either, and evaluating it
throws. A Lazy moved to itself keeps both. -/
theorem C51_move (f : Nat → Outcome) (w : World) (y : Nat) (z : Lz) (h : w.get y = some z) :
    (step f (.move y) w).1 = .ok none ∧ (step f (.move y) w).2.get w.lz.length = some z ∧
    (step f (.move y) w).2.calls = w.calls ∧ (step f (.move y) w).2.deleted = w.deleted ∧
    (step f (.eval y) (step f (.move y) w).2).1 = .exn .badFunctionCall ∧
    (∀ x zx, w.get x = some zx → x ≠ y →
      (step f (.moveAssign x y) w).1 = .ok none ∧ (step f (.moveAssign x y) w).2.get x = some z ∧
      (step f (.moveAssign x y) w).2.calls = w.calls ∧
      (step f (.eval y) (step f (.moveAssign x y) w).2).1 = .exn .badFunctionCall) ∧
    step f (.moveAssign y y) w = (.ok none, w) := by
  have hlt := get_lt h
  have e1 : (step f (.move y) w).2.get y = some ⟨false, none⟩ := by
    simp only [step, h]
    rw [get_append, set_lz_length, if_neg (by omega), get_set hlt, if_pos rfl]
  refine ⟨by simp [step, h], ?_, by simp [step, h, World.set], by simp [step, h, World.set], ?_, ?_, by simp [step, h]⟩
  · simp only [step, h]; rw [get_append, set_lz_length, if_pos rfl]
  · generalize (step f (.move y) w).2 = w' at e1
    simp [step, eval, e1]
  · intro x zx hx hxy
    have hly : y < (w.set x (some z)).lz.length := by rw [set_lz_length]; exact hlt
    have e2 : (step f (.moveAssign x y) w).2.get y = some ⟨false, none⟩ := by
      simp only [step, h, hx, if_neg hxy, drop_get]
      rw [get_set hly, if_pos rfl]
    refine ⟨by simp [step, h, hx, hxy], ?_, by simp [step, h, hx, hxy, World.set], ?_⟩
    · simp only [step, h, hx, if_neg hxy, drop_get]
      rw [get_set hly, if_neg hxy, get_set (get_lt hx), if_pos rfl]
    · generalize (step f (.moveAssign x y) w).2 = w' at e2
      simp [step, eval, e2]

/-! ## C71 -/

/-- C71: in every reachable state each object made by a factory is either owned by some live Lazy and not
deleted, or owned by none and deleted exactly once. -/
theorem C71_ownership (f : Nat → Outcome) (os : List Op) (k : Nat)
    (hk : k < (run f os World.init).2.calls.length) (hm : f k = .obj ∨ f k = .noBlock) :
    ((∃ x, Holds (run f os World.init).2 x k) ∧ (run f os World.init).2.deleted.count k = 0) ∨
    ((∀ x, ¬ Holds (run f os World.init).2 x k) ∧ (run f os World.init).2.deleted.count k = 1) := by
  have hi := run_inv os (init_inv f)
  generalize (run f os World.init).2 = w at *
  have hh : Held w k ↔ ∃ x, Holds w x k := by
    constructor
    · rintro ⟨x, ⟨b, o⟩, h, ho⟩
      simp only at ho; subst ho
      exact ⟨x, b, h⟩
    · rintro ⟨x, b, h⟩; exact ⟨x, _, h, rfl⟩
  by_cases hd : k ∈ w.deleted
  · right
    refine ⟨fun x hx => ?_, ?_⟩
    · exact (hi.held k (hh.2 ⟨x, hx⟩)).1 hd
    · rw [hi.nodup.count, if_pos hd]
  · left
    refine ⟨?_, List.count_eq_zero.2 hd⟩
    rcases hi.all k hk hm with h | h
    · exact hh.1 h
    · exact absurd h hd

example : run (fun k => if k < 2 then .throws (.user k) else .obj)
    [.construct true, .eval 0, .eval 0, .eval 0, .copy 0, .eval 1, .destroy 0, .eval 1, .destroy 1] World.init =
    ([.ok none, .exn (.user 0), .exn (.user 1), .ok (some 2), .ok none, .ok (some 2), .ok none, .ok (some 2), .ok none],
      ⟨[none, none], [0, 0, 0], [2]⟩) := by decide +kernel

example : run (fun _ => .obj) [.construct true, .copy 0, .eval 1, .eval 0, .move 1, .eval 1, .assign 0 2, .eval 0] World.init =
    ([.ok none, .ok none, .ok (some 0), .ok (some 1), .ok none, .exn .badFunctionCall, .ok none, .ok (some 0)],
      ⟨[some ⟨true, some 0⟩, some ⟨false, none⟩, some ⟨true, some 0⟩], [1, 0], [1]⟩) := by decide +kernel

end Helper.Lazy
