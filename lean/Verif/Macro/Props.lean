import Verif.Macro.Model
/-!
# Properties C61 and C62
-/
set_option linter.unusedSectionVars false
namespace Helper.Macro

variable {σ α : Type}

/-! ## C61 -/

/-- The behaviour of an assertion on a condition: evaluated exactly once; nothing else happens if it holds; if it is false the
message is evaluated once and `std::runtime_error` thrown; an exception of the condition goes through. -/
structure Asserts (m : Exp σ Unit) (cond : Exp σ Bool) (msg : Exp σ Unit) : Prop where
  holds : ∀ s s', cond s = (.val true, s') → m s = (.val (), s')
  fails : ∀ s s' s'', cond s = (.val false, s') → msg s' = (.val (), s'') → m s = (.thrown runtimeError, s'')
  msgThrows : ∀ s s' s'' t, cond s = (.val false, s') → msg s' = (.thrown t, s'') → m s = (.thrown t, s'')
  throws : ∀ s s' t, cond s = (.thrown t, s') → m s = (.thrown t, s')

theorem asserts_bind (cond : Exp σ Bool) (msg : Exp σ Unit) :
    Asserts (cond.bind fun r => if !r then throwRt msg else .pure ()) cond msg := by
  refine ⟨?_, ?_, ?_, ?_⟩
  · intro s s' h; simp [Exp.bind, h, Exp.pure]
  · intro s s' s'' h h'; simp [Exp.bind, h, throwRt, h', Exp.throw]
  · intro s s' s'' t h h'; simp [Exp.bind, h, throwRt, h']
  · intro s s' t h; simp [Exp.bind, h]

/-- C61: the assertion macros, where the message has user expressions only in the `_MSG` forms. -/
theorem C61_asserts (e : Exp σ Bool) (error : Exp σ Unit) :
    Asserts (assert e) e (.pure ()) ∧ Asserts (precondition e) e (.pure ()) ∧
    Asserts (assertMsg e error) e error ∧ Asserts (preconditionMsg e error) e error ∧
    Asserts (debugAssert false e) e (.pure ()) ∧ Asserts (debugPrecondition false e) e (.pure ()) ∧
    Asserts (debugAssertMsg false e error) e error :=
  ⟨asserts_bind e _, asserts_bind e _, asserts_bind e _, asserts_bind e _, asserts_bind e _, asserts_bind e _, asserts_bind e _⟩

/-- C61: with `NDEBUG` the debug forms do nothing and evaluate nothing. -/
theorem C61_ndebug (e : Exp σ Bool) (error : Exp σ Unit) (s : σ) :
    debugAssert true e s = (.val (), s) ∧ debugPrecondition true e s = (.val (), s) ∧
    debugAssertMsg true e error s = (.val (), s) := ⟨rfl, rfl, rfl⟩

/-- C61: `HELPER_ASSERT_EQUAL` is an assertion on the comparison, each operand being evaluated once, in either order; its
message evaluates both operands again. -/
theorem C61_equal (rtl : Bool) (eq : α → α → Exp σ Bool) (e1 e2 : Exp σ α) :
    Asserts (assertEqual rtl eq e1 e2) ((Exp.both rtl e1 e2).bind fun p => eq p.1 p.2)
      (e1.bind fun _ => e2.bind fun _ => .pure ()) := asserts_bind _ _

/-- C61: evaluation of the operands. -/
theorem C61_operands (rtl : Bool) (eq : α → α → Exp σ Bool) (e1 e2 : Exp σ α) (s s1 s2 s3 : σ) (a b : α) (r : Bool)
    (h1 : if rtl then e2 s = (.val b, s1) ∧ e1 s1 = (.val a, s2) else e1 s = (.val a, s1) ∧ e2 s1 = (.val b, s2))
    (h3 : eq a b s2 = (.val r, s3)) :
    ((Exp.both rtl e1 e2).bind fun p => eq p.1 p.2) s = (.val r, s3) := by
  cases rtl <;> simp at h1 <;> simp [Exp.both, Exp.bind, Exp.pure, h1.1, h1.2, h3]

/-- C61: the macros that always throw. -/
theorem C61_fail (error : Exp σ Unit) (s : σ) :
    (∀ s', error s = (.val (), s') → failMsg error s = (.thrown runtimeError, s')) ∧
    notImplemented s = (.thrown runtimeError, s) := by
  refine ⟨fun s' h => ?_, rfl⟩
  simp [failMsg, throwRt, Exp.bind, h, Exp.throw]

/-- C61: `HELPER_ASSERT`, `HELPER_PRECONDITION` and the debug forms without message, for conditions that do not throw: they throw
iff the condition is false, and it is then `std::runtime_error`. -/
theorem C61_iff (e : Exp σ Bool) (s : σ) (b : Bool) (s' : σ) (h : e s = (.val b, s')) :
    ∀ m ∈ [assert e, precondition e, debugAssert false e, debugPrecondition false e],
      (m s = (.thrown runtimeError, s') ↔ b = false) ∧ (m s = (.val (), s') ↔ b = true) := by
  have key : ∀ m, Asserts m e (.pure ()) →
      (m s = (.thrown runtimeError, s') ↔ b = false) ∧ (m s = (.val (), s') ↔ b = true) := by
    intro m hm
    cases b with
    | true => rw [hm.holds s s' h]; simp
    | false => rw [hm.fails s s' s' h rfl]; simp
  obtain ⟨h1, h2, _, _, h3, h4, _⟩ := C61_asserts e (.pure ())
  intro m hm
  simp only [List.mem_cons, List.not_mem_nil, or_false] at hm
  rcases hm with rfl | rfl | rfl | rfl
  · exact key _ h1
  · exact key _ h2
  · exact key _ h3
  · exact key _ h4

/-- C61 is false for the forms with a message: if the condition is false and the evaluation of the message throws, that
exception comes out instead of `std::runtime_error`. -/
theorem C61_msg_refuted (cond : Exp σ Bool) (error : Exp σ Unit) (s s' s'' : σ) (h : cond s = (.val false, s'))
    (n : Nat) (hm : error s' = (.thrown (.other n), s'')) :
    (assertMsg cond error s).1 = .thrown (.other n) ∧ (assertMsg cond error s).1 ≠ .thrown runtimeError ∧
    (preconditionMsg cond error s).1 = .thrown (.other n) := by
  obtain ⟨_, _, h1, h2, _⟩ := C61_asserts cond error
  rw [h1.msgThrows s s' s'' _ h hm, h2.msgThrows s s' s'' _ h hm]
  exact ⟨rfl, fun h => (by cases h), rfl⟩

/-- C61 is false for `HELPER_ASSERT_EQUAL`: the operands are evaluated again for the message, which may throw
something else. Here the first evaluation of the left operand gives 1, the second throws. -/
theorem C61_equal_refuted : ∃ e1 e2 : Exp Nat Nat, ∀ rtl,
    (((Exp.both rtl e1 e2).bind fun p => Exp.pure (p.1 == p.2)) 0).1 = .val false ∧
    (assertEqual rtl (fun a b => .pure (a == b)) e1 e2 0).1 = .thrown (.other 7) := by
  refine ⟨fun s => if s = 0 then (.val 1, 1) else (.thrown (.other 7), s), fun s => (.val 2, s), fun rtl => ?_⟩
  cases rtl <;> exact ⟨rfl, rfl⟩

example : (assert (fun s : Nat => (.val false, s + 1)) 0) = (.thrown runtimeError, 1) ∧
    (assert (fun s : Nat => (.val true, s + 1)) 0) = (.val (), 1) ∧
    (assertEqual false (fun a b => .pure (a == b)) (fun s : Nat => (.val s, s + 1)) (fun s => (.val s, s + 1)) 0) =
      (.thrown runtimeError, 4) := by decide +kernel

/-! ## C62 -/

/-- What a sequence of visits should write: all but the once-only sites at every visit, those at the first one. -/
def expected (kind : Nat → Site) : List Nat → List Nat → List (Kind × Nat)
  | _, [] => []
  | seen, x :: xs =>
    (match kind x with
      | .deprecated => if x ∈ seen then [] else [(Kind.deprecated, x)]
      | .warnOnce => if x ∈ seen then [] else [(Kind.warning, x)]
      | .notify => [(Kind.notification, x)]
      | .warn => [(Kind.warning, x)]
      | .error => [(Kind.error, x)]) ++ expected kind (x :: seen) xs

/-- C62: whatever call sites are visited in whatever order, the once-only ones write at their first visit and at no other. -/
theorem C62_history_partial (kind : Nat → Site) (xs : List Nat) : (xs.foldl (reach kind) Diag.init).out = expected kind [] xs := by
  have key : ∀ (xs seen : List Nat) (d : Diag),
      (∀ x, (kind x = .deprecated ∨ kind x = .warnOnce) → (d.first x = true ↔ x ∉ seen)) →
      (xs.foldl (reach kind) d).out = d.out ++ expected kind seen xs := by
    intro xs
    induction xs with
    | nil => intro seen d _; simp [expected]
    | cons x xs ih =>
      intro seen d h
      rw [List.foldl_cons, expected, ← List.append_assoc]
      have hmem : ∀ y, y ≠ x → (y ∉ x :: seen ↔ y ∉ seen) := by
        intro y hy; simp [hy]
      cases hk : kind x with
      | deprecated =>
        have hx := h x (.inl hk)
        by_cases hs : x ∈ seen
        · have hf : d.first x = false := by
            cases hf : d.first x with
            | false => rfl
            | true => exact absurd hs (hx.1 hf)
          have e : reach kind d x = d := by simp [reach, hk, deprecated, hf]
          rw [e, ih (x :: seen) d ?_]
          · simp [hs]
          · intro y hy
            rw [h y hy]
            by_cases hyx : y = x
            · subst hyx; simp [hs]
            · exact (hmem y hyx).symm
        · have hf : d.first x = true := hx.2 hs
          have e : reach kind d x = ⟨fun s => if s = x then false else d.first s, d.out ++ [(.deprecated, x)]⟩ := by
            simp [reach, hk, deprecated, hf]
          rw [e, ih (x :: seen) _ ?_]
          · simp [hs]
          · intro y hy
            by_cases hyx : y = x
            · subst hyx; simp
            · simp only [if_neg hyx]; rw [h y hy]; exact (hmem y hyx).symm
      | warnOnce =>
        have hx := h x (.inr hk)
        by_cases hs : x ∈ seen
        · have hf : d.first x = false := by
            cases hf : d.first x with
            | false => rfl
            | true => exact absurd hs (hx.1 hf)
          have e : reach kind d x = d := by simp [reach, hk, warnOnce, hf]
          rw [e, ih (x :: seen) d ?_]
          · simp [hs]
          · intro y hy
            rw [h y hy]
            by_cases hyx : y = x
            · subst hyx; simp [hs]
            · exact (hmem y hyx).symm
        · have hf : d.first x = true := hx.2 hs
          have e : reach kind d x = ⟨fun s => if s = x then false else d.first s, d.out ++ [(.warning, x)]⟩ := by
            simp [reach, hk, warnOnce, hf]
          rw [e, ih (x :: seen) _ ?_]
          · simp [hs]
          · intro y hy
            by_cases hyx : y = x
            · subst hyx; simp
            · simp only [if_neg hyx]; rw [h y hy]; exact (hmem y hyx).symm
      | notify =>
        rw [ih (x :: seen) _ ?_]
        · simp [reach, hk, notify]
        · intro y hy
          have hyx : y ≠ x := by rintro rfl; rw [hk] at hy; simp at hy
          rw [hmem y hyx, ← h y hy]; simp [reach, hk, notify]
      | warn =>
        rw [ih (x :: seen) _ ?_]
        · simp [reach, hk, warn]
        · intro y hy
          have hyx : y ≠ x := by rintro rfl; rw [hk] at hy; simp at hy
          rw [hmem y hyx, ← h y hy]; simp [reach, hk, warn]
      | error =>
        rw [ih (x :: seen) _ ?_]
        · simp [reach, hk, error]
        · intro y hy
          have hyx : y ≠ x := by rintro rfl; rw [hk] at hy; simp at hy
          rw [hmem y hyx, ← h y hy]; simp [reach, hk, error]
  rw [key xs [] Diag.init (by simp [Diag.init])]
  rfl

/-- C62: a once-only site that is reached writes exactly once, one that is not never writes. -/
theorem C62_once_partial (kind : Nat → Site) (xs : List Nat) (x : Nat) (hk : kind x = .deprecated ∨ kind x = .warnOnce) :
    ((xs.foldl (reach kind) Diag.init).out.filter (·.2 == x)).length = if x ∈ xs then 1 else 0 := by
  rw [C62_history_partial]
  have key : ∀ (xs seen : List Nat), ((expected kind seen xs).filter (·.2 == x)).length =
      if x ∈ seen then 0 else if x ∈ xs then 1 else 0 := by
    intro xs
    induction xs with
    | nil => intro seen; simp [expected]
    | cons y xs ih =>
      intro seen
      rw [expected, List.filter_append, List.length_append, ih (y :: seen)]
      by_cases hyx : y = x
      · subst hyx
        rcases hk with hk | hk <;> simp only [hk] <;> by_cases hs : y ∈ seen <;> simp [hs]
      · have hxy : x ≠ y := fun e => hyx e.symm
        have : List.filter (fun p : Kind × Nat => p.2 == x) (match kind y with
            | .deprecated => if y ∈ seen then [] else [(Kind.deprecated, y)]
            | .warnOnce => if y ∈ seen then [] else [(Kind.warning, y)]
            | .notify => [(Kind.notification, y)]
            | .warn => [(Kind.warning, y)]
            | .error => [(Kind.error, y)]) = [] := by
          cases kind y <;> simp only <;> (try split) <;> simp [hyx]
        rw [this]
        simp [hxy]
  rw [key xs []]
  simp

/-- C62 is about messages that can be evaluated: if the evaluation of the message of `HELPER_WARN_ONCE` throws at the
first visit, it is never completed, however often the site is visited later. -/
theorem C62_throw_refuted (site : Nat) (n : Nat) :
    (Nat.repeat (warnOnce true site) n (warnOnce false site Diag.init)).out = [] := by
  have : ∀ d : Diag, d.first site = false → Nat.repeat (warnOnce true site) n d = d := by
    intro d hd
    induction n with
    | zero => rfl
    | succ n ih => rw [Nat.repeat, ih]; simp [warnOnce, hd]
  rw [this _ (by simp [warnOnce, Diag.init])]
  simp [warnOnce, Diag.init]

example : ([1, 2, 1, 3, 2, 3].foldl (reach fun n => if n = 1 then .deprecated else if n = 2 then .warnOnce else .warn) Diag.init).out =
    [(.deprecated, 1), (.warning, 2), (.warning, 3), (.warning, 3)] := by decide +kernel

end Helper.Macro
