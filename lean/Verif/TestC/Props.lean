import Verif.TestC.Lemmas
/-!
# Properties C63, C64, C65 and C74
-/
set_option linter.unusedSectionVars false
namespace Helper.TestC

open Helper.Macro Spec

variable {σ V α β : Type}

/-! ## C63 -/

/-- C63: the counter counts the failed checks and the calls ended by a standard exception, for every test program, as long
as there are fewer than 2^31; the code under test runs as if there were no counter. -/
theorem C63_count_partial (rtl : Bool) (p : Stmt σ V) (w : W σ)
    (h : w.fails + ((run rtl p w.u).failed + (run rtl p w.u).ended) < 2 ^ 31) :
    (exec rtl p w).2.fails = w.fails + ((run rtl p w.u).failed + (run rtl p w.u).ended) ∧
    (exec rtl p w).2.skipped = w.skipped + (run rtl p w.u).skipped ∧
    (exec rtl p w).2.u = (run rtl p w.u).u ∧
    ((exec rtl p w).1 = .val () ↔ (run rtl p w.u).out = .val ()) ∧
    ∀ t, (exec rtl p w).1 = .thrown t ↔ (run rtl p w.u).out = .thrown t := by
  rw [(good_exec rtl p w).1 h]
  refine ⟨rfl, rfl, rfl, ?_, fun t => ?_⟩
  · cases (run rtl p w.u).out <;> simp [ofOut]
  · cases (run rtl p w.u).out <;> simp [ofOut]

/-- C63 is false for 2^31 failures or more: the counter overflows, which is undefined. -/
theorem C63_overflow_refuted (rtl : Bool) (p : Stmt σ V) (u : σ)
    (h : 2 ^ 31 ≤ (run rtl p u).failed + (run rtl p u).ended) : (exec rtl p ⟨u, 0, 0⟩).1 = .overflow :=
  (good_exec rtl p ⟨u, 0, 0⟩).2 (show 0 < 2 ^ 31 by decide) (by simpa [Run.total] using h)

theorem times_fail (rtl : Bool) (n : Nat) (s : σ) : times (run rtl (Stmt.staticAssert (V := V) false)) n s = ⟨n, 0, 0, .val (), s⟩ := by
  induction n generalizing s with
  | zero => rfl
  | succ n ih =>
    simp only [times, andThen]
    have : run rtl (Stmt.staticAssert (V := V) false) s = ⟨1, 0, 0, .val (), s⟩ := rfl
    rw [this]
    simp only [ih]
    congr 1; omega

/-- Such programs exist, for every number of failures. -/
theorem C63_anyNumber (rtl : Bool) (n : Nat) (u : σ) :
    (run rtl (Stmt.loop (V := V) (fun _ => n) (.staticAssert false)) u).failed = n ∧
    (run rtl (Stmt.loop (V := V) (fun _ => n) (.staticAssert false)) u).ended = 0 ∧
    (run rtl (Stmt.loop (V := V) (fun _ => n) (.staticAssert false)) u).out = .val () := by
  show (times (run rtl (Stmt.staticAssert (V := V) false)) n u).failed = n ∧
    (times (run rtl (Stmt.staticAssert (V := V) false)) n u).ended = 0 ∧
    (times (run rtl (Stmt.staticAssert (V := V) false)) n u).out = .val ()
  rw [times_fail]
  exact ⟨rfl, rfl, rfl⟩

/-- C63: a standard exception ends only the `HELPER_TEST_CALL` it occurs in: what follows runs from the state the exception
left, with one more failure. -/
theorem C63_call (rtl : Bool) (p q : Stmt σ V) (w w' : W σ) (n : Nat) (h : exec rtl p w = (.thrown (.std n), w'))
    (hb : w'.fails + 1 < 2 ^ 31) :
    exec rtl (.call p) w = (.val (), { w' with fails := w'.fails + 1 }) ∧
    exec rtl (.seq (.call p) q) w = exec rtl q { w' with fails := w'.fails + 1 } := by
  have e : exec rtl (.call p) w = (.val (), { w' with fails := w'.fails + 1 }) := by
    simp [exec, call, M.tryCatch, h, incr, hb]
  refine ⟨e, ?_⟩
  simp only [exec, M.bind] at e ⊢
  rw [e]

/-- C63: other exceptions are not caught by `HELPER_TEST_CALL` and are not counted. -/
theorem C63_other (rtl : Bool) (p : Stmt σ V) (w w' : W σ) (n : Nat) (h : exec rtl p w = (.thrown (.other n), w')) :
    exec rtl (.call p) w = (.thrown (.other n), w') := by
  simp [exec, call, M.tryCatch, h]

/-! ## C64 -/

/-- The exit status of a test executable. -/
theorem C64_status (rtl : Bool) (p : Stmt σ V) (u : σ) (h : (run rtl p u).failed + (run rtl p u).ended < 2 ^ 31) :
    ((run rtl p u).out = .val () → main rtl p u = .status (((run rtl p u).failed + (run rtl p u).ended) % 256)) ∧
    (∀ t, (run rtl p u).out = .thrown t → main rtl p u = .aborted) := by
  have := (good_exec rtl p ⟨u, 0, 0⟩).1 (by simpa [Run.total] using h)
  simp only [main, this]
  refine ⟨fun e => ?_, fun t e => ?_⟩
  · rw [e]; simp [ofOut, Run.total]
  · rw [e]; simp [ofOut]

/-- C64 is false: a test executable with 256, 512, ... failures exits with status 0. -/
theorem C64_refuted (rtl : Bool) (k : Nat) (hk : 256 * k < 2 ^ 31) (u : σ) :
    ∃ p : Stmt σ V, (run rtl p u).failed = 256 * k ∧ main rtl p u = .status 0 := by
  refine ⟨.loop (fun _ => 256 * k) (.staticAssert false), ?_, ?_⟩
  · exact (C63_anyNumber rtl (256 * k) u).1
  · obtain ⟨h1, h2, h3⟩ := C63_anyNumber (V := V) rtl (256 * k) u
    rw [(C64_status rtl _ u (by rw [h1, h2]; omega)).1 h3, h1, h2]
    congr 1
    omega

/-- C64 holds for fewer than 256 failures. -/
theorem C64_small_partial (rtl : Bool) (p : Stmt σ V) (u : σ) (h : (run rtl p u).failed + (run rtl p u).ended < 256) :
    main rtl p u = .status 0 ↔ (run rtl p u).failed = 0 ∧ (run rtl p u).ended = 0 ∧ (run rtl p u).out = .val () := by
  obtain ⟨h1, h2⟩ := C64_status rtl p u (by omega)
  cases ho : (run rtl p u).out with
  | val a =>
    rw [h1 ho]
    simp only [Exit.status.injEq, and_true]
    omega
  | thrown t => rw [h2 t ho]; simp

/-- C64: exactly, whatever the number of failures (below the overflow). -/
theorem C64_exact (rtl : Bool) (p : Stmt σ V) (u : σ) (h : (run rtl p u).failed + (run rtl p u).ended < 2 ^ 31) :
    main rtl p u = .status 0 ↔ ((run rtl p u).failed + (run rtl p u).ended) % 256 = 0 ∧ (run rtl p u).out = .val () := by
  obtain ⟨h1, h2⟩ := C64_status rtl p u h
  cases ho : (run rtl p u).out with
  | val a => rw [h1 ho]; simp
  | thrown t => rw [h2 t ho]; simp

/-! ## C65 -/

/-- The relation of the operands, each evaluated exactly once: in the order left, right or right, left. -/
theorem C65_rel (rtl : Bool) (r : V → V → Exp σ Bool) (e x : Exp σ V) (s s1 s2 s3 : σ) (a b : V) (v : Bool)
    (h : if rtl then x s = (.val b, s1) ∧ e s1 = (.val a, s2) else e s = (.val a, s1) ∧ x s1 = (.val b, s2))
    (h3 : r a b s2 = (.val v, s3)) : rel rtl r e x s = (.val v, s3) := by
  cases rtl <;> simp at h <;> simp [rel, Exp.both, Exp.bind, Exp.pure, h.1, h.2, h3]

theorem lift_val {e : Exp σ α} {a : α} {w : W σ} {u' : σ} (h : e w.u = (.val a, u')) : M.lift e w = (.val a, { w with u := u' }) := by
  simp [M.lift, h]

theorem bind_lift {e : Exp σ α} {a : α} {w : W σ} {u' : σ} {k : α → M σ β} (h : e w.u = (.val a, u')) :
    ((M.lift e).bind k) w = k a { w with u := u' } := by
  simp [M.bind, lift_val h]

/-- C65: when the check passes, each operand has been evaluated exactly once and nothing else happens. -/
theorem C65_pass_partial (rtl : Bool) (r : V → V → Exp σ Bool) (e x : Exp σ V) (w : W σ) (s' : σ)
    (h : rel rtl r e x w.u = (.val true, s')) :
    ∀ p ∈ [Stmt.check r e x, .same r e x, .sameAs r e x, .equal r e x, .equals r e x, .less r e x],
      exec rtl p w = (.val (), { w with u := s' }) := by
  intro p hp
  simp only [List.mem_cons, List.not_mem_nil, or_false] at hp
  rcases hp with rfl | rfl | rfl | rfl | rfl | rfl <;>
    simp only [exec, check, same, sameAs, equal, equals, less, testingCheck] <;>
    exact bind_lift h

/-- C65: the same for the checks of another form. -/
theorem C65_pass2_partial (rtl : Bool) (w : W σ) (s' : σ) :
    (∀ e : Exp σ Bool, e w.u = (.val true, s') → exec (V := V) rtl (.assert e) w = (.val (), { w with u := s' })) ∧
    (∀ (r : V → V → Exp σ Bool) (e x : Exp σ V), rel rtl r e x w.u = (.val false, s') →
      exec rtl (.notEqual r e x) w = (.val (), { w with u := s' })) ∧
    (∀ (d : V → V → Exp σ V) (le : V → V → Exp σ Bool) (e x t : Exp σ V) (a b : V) (s1 s2 : σ),
      ((Exp.both rtl e x).bind fun p => d p.1 p.2) w.u = (.val a, s1) → t s1 = (.val b, s2) → le a b s2 = (.val true, s') →
      exec rtl (.within d le e x t) w = (.val (), { w with u := s' })) := by
  refine ⟨fun e h => ?_, fun r e x h => ?_, fun d le e x t a b s1 s2 h1 h2 h3 => ?_⟩
  · exact bind_lift h
  · exact bind_lift h
  · simp only [exec, within]
    rw [bind_lift h1, bind_lift (a := true) (u' := s') (by simp [Exp.bind, h2, h3])]
    rfl

theorem show_fails (e : Exp σ α) (w : W σ) : (show_ e w).2.fails = w.fails := by
  simp only [show_, M.bind, M.lift, M.pure]
  rcases e w.u with ⟨_ | _, u⟩ <;> rfl

theorem bind_fails {m : M σ α} {k : α → M σ β} (h : ∀ w, (m w).2.fails = w.fails) (h' : ∀ a w, (k a w).2.fails = w.fails) (w : W σ) :
    ((m.bind k) w).2.fails = w.fails := by
  simp only [M.bind]
  have := h w
  rcases hm : m w with ⟨_ | _ | _, w'⟩
  · simp only; rw [h', ← this, hm]
  · simp only; rw [← this, hm]
  · simp only; rw [← this, hm]

theorem incr_bind_fails {k : Unit → M σ β} (h' : ∀ w, (k () w).2.fails = w.fails) (w : W σ) (hb : w.fails + 1 < 2 ^ 31) :
    ((incr.bind k) w).2.fails = w.fails + 1 := by
  simp only [M.bind, incr, if_pos hb]
  rw [h']

/-- C65: when the check fails, it is counted as failed whatever the evaluations for the message give, throwing included. -/
theorem C65_fail_partial (rtl : Bool) (r : V → V → Exp σ Bool) (e x : Exp σ V) (w : W σ) (s' : σ) (hb : w.fails + 1 < 2 ^ 31)
    (h : rel rtl r e x w.u = (.val false, s')) :
    ∀ p ∈ [Stmt.check r e x, .same r e x, .sameAs r e x, .equal r e x, .equals r e x, .less r e x],
      (exec rtl p w).2.fails = w.fails + 1 := by
  have sf : ∀ (e : Exp σ V) w, (show_ e w).2.fails = w.fails := show_fails
  have sb : ∀ (e : Exp σ V) (m : M σ Unit), (∀ w, (m w).2.fails = w.fails) → ∀ w, (((show_ e).bind fun _ => m) w).2.fails = w.fails :=
    fun e m hm w => bind_fails (show_fails e) (fun _ => hm) w
  have h : ((Exp.both rtl e x).bind fun p => r p.1 p.2) w.u = (.val false, s') := h
  intro p hp
  simp only [List.mem_cons, List.not_mem_nil, or_false] at hp
  rcases hp with rfl | rfl | rfl | rfl | rfl | rfl
  · simp only [exec, check, testingCheck]
    rw [bind_lift h]
    exact incr_bind_fails (w := { w with u := s' }) (sb _ _ (sf _)) hb
  · simp only [exec, same]
    rw [bind_lift h]
    exact incr_bind_fails (w := { w with u := s' }) (sb _ _ (sb _ _ (sb _ _ (sf _)))) hb
  · simp only [exec, sameAs]
    rw [bind_lift h]
    exact incr_bind_fails (w := { w with u := s' }) (sb _ _ (sb _ _ (sf _))) hb
  · simp only [exec, equal]
    rw [bind_lift h]
    exact incr_bind_fails (w := { w with u := s' }) (sb _ _ (sb _ _ (sb _ _ (sf _)))) hb
  · simp only [exec, equals]
    rw [bind_lift h]
    exact incr_bind_fails (w := { w with u := s' }) (sb _ _ (sb _ _ (sf _))) hb
  · simp only [exec, less]
    rw [bind_lift h]
    exact incr_bind_fails (w := { w with u := s' }) (sb _ _ (sf _)) hb

/-- C65 is false for `HELPER_TEST_COMPARE`, `HELPER_TEST_RESULT_COMPARE` and the predicate macros: operands are evaluated twice when
the check passes. In `HELPER_TEST_COMPARE` the expression is first evaluated to be printed; the verdict is that of the
second evaluation; then the expected expression is evaluated again. -/
theorem C65_compare_refuted (rtl : Bool) (c : V → V → Exp σ Bool) (e x : Exp σ V) (w : W σ) (s1 s2 s3 : σ) (a b : V)
    (h1 : e w.u = (.val a, s1)) (h2 : rel rtl c e x s1 = (.val true, s2)) (h3 : x s2 = (.val b, s3)) :
    exec rtl (.compare c e x) w = (.val (), { w with u := s3 }) := by
  simp only [exec, compare]
  simp only [M.bind, show_, lift_val h1, M.pure]
  have h2 : ((Exp.both rtl e x).bind fun p => c p.1 p.2) s1 = (.val true, s2) := h2
  rw [lift_val (w := { w with u := s1 }) h2]
  simp only [if_true, M.bind]
  rw [lift_val (w := { w with u := s2 }) h3]
  rfl

theorem C65_predicate_refuted (rtl : Bool) (p : V → Exp σ Bool) (q : V → V → Exp σ Bool) (e x : Exp σ V) (w : W σ) (s1 s2 s3 : σ) (a b : V) :
    (e w.u = (.val a, s1) → (e.bind p) s1 = (.val true, s2) → exec rtl (.unaryPredicate p e) w = (.val (), { w with u := s2 })) ∧
    (e w.u = (.val a, s1) → x s1 = (.val b, s2) → rel rtl q e x s2 = (.val true, s3) →
      exec rtl (.binaryPredicate q e x) w = (.val (), { w with u := s3 })) ∧
    (e w.u = (.val a, s1) → (x.bind fun b => q a b) s1 = (.val true, s2) → x s2 = (.val b, s3) →
      exec rtl (.resultCompare q e x) w = (.val (), { w with u := s3 })) := by
  refine ⟨fun h1 h2 => ?_, fun h1 h2 h3 => ?_, fun h1 h2 h3 => ?_⟩
  · simp only [exec, unaryPredicate]
    simp only [M.bind, show_, lift_val h1, M.pure]
    rw [lift_val (w := { w with u := s1 }) h2]
    rfl
  · simp only [exec, binaryPredicate]
    simp only [M.bind, show_, lift_val h1, M.pure]
    rw [lift_val (w := { w with u := s1 }) h2]
    simp only
    have h3 : ((Exp.both rtl e x).bind fun p => q p.1 p.2) s2 = (.val true, s3) := h3
    rw [lift_val (w := { w with u := s2 }) h3]
    rfl
  · simp only [exec, resultCompare]
    rw [bind_lift h1, bind_lift (w := { w with u := s1 }) h2]
    simp only [if_true, show_]
    rw [bind_lift (w := { w with u := s2 }) h3]
    rfl

/-- C65, concrete: an expression that gives 0, 1, 2, ... at successive evaluations is not equal to 1 at the first one, but
`HELPER_TEST_COMPARE(next(),==,1)` passes, and evaluates it twice; `HELPER_TEST_EQUAL(next(),1)` fails. -/
theorem C65_verdict_refuted (rtl : Bool) :
    let next : Exp Nat Nat := fun s => (.val s, s + 1)
    let one : Exp Nat Nat := fun s => (.val 1, s)
    let eq : Nat → Nat → Exp Nat Bool := fun a b => .pure (a == b)
    exec rtl (.compare eq next one) ⟨0, 0, 0⟩ = (.val (), ⟨2, 0, 0⟩) ∧
    exec rtl (.equal eq next one) ⟨0, 0, 0⟩ = (.val (), ⟨3, 1, 0⟩) := by
  cases rtl <;> exact ⟨rfl, rfl⟩

/-! ## C74 -/

/-- A sum as written in a macro argument: a first term and further terms with their signs (`true` for minus). -/
structure Sum where
  first : Int
  rest : List (Bool × Int)

def restVal (l : List (Bool × Int)) : Int := (l.map fun p => if p.1 then -p.2 else p.2).sum

/-- The value of the argument. -/
def Sum.val (e : Sum) : Int := e.first + restVal e.rest

/-- Line 309: the text `expression-expected`, read as C++ reads it: the sign stands before the first term of the second
argument only. -/
def minusText (e x : Sum) : Sum := ⟨e.first, e.rest ++ (true, x.first) :: x.rest⟩

/-- Lines 309-310: the verdict of `HELPER_TEST_WITHIN` on arguments that are sums. -/
def withinText (e x tol : Sum) : Bool := decide ((minusText e x).val.natAbs ≤ tol.val)

/-- The number compared to the tolerance. -/
theorem C74_actual (e x : Sum) : (minusText e x).val = e.val - x.val + 2 * restVal x.rest := by
  simp only [Sum.val, minusText, restVal, List.map_append, List.map_cons, List.sum_append, List.sum_cons, if_true]
  generalize (x.rest.map fun p => if p.1 = true then -p.2 else p.2).sum = a
  generalize (e.rest.map fun p => if p.1 = true then -p.2 else p.2).sum = b
  have : ∀ p q : Int, p + (b + (-q + a)) = p + b - (q + a) + 2 * a := by intro p q; omega
  exact this _ _

/-- C74 holds if the expected value is written as a single term, for instance in parentheses. -/
theorem C74_term_partial (e x tol : Sum) (h : restVal x.rest = 0) :
    withinText e x tol = true ↔ (e.val - x.val).natAbs ≤ tol.val := by
  rw [withinText, C74_actual, h]
  simp

/-- C74 is false for every expected value written as a sum whose further terms do not cancel: the check fails on an
expression equal to the expected value, and passes on one at a distance of twice those terms, with tolerance 0. -/
theorem C74_refuted (x : Sum) (h : restVal x.rest ≠ 0) :
    withinText ⟨x.val, []⟩ x ⟨0, []⟩ = false ∧
    ∃ e : Sum, e.val ≠ x.val ∧ withinText e x ⟨0, []⟩ = true := by
  have v : ∀ n : Int, (⟨n, []⟩ : Sum).val = n := by intro n; simp [Sum.val, restVal]
  refine ⟨?_, ⟨x.val - 2 * restVal x.rest, []⟩, ?_, ?_⟩
  · simp only [withinText, C74_actual, v, decide_eq_false_iff_not]
    omega
  · rw [v]; omega
  · simp only [withinText, C74_actual, v, decide_eq_true_eq]
    omega

/-- `HELPER_TEST_WITHIN(5, 2+3, 0)` fails, since it computes `abs(5-2+3)`. -/
example : withinText ⟨5, []⟩ ⟨2, [(false, 3)]⟩ ⟨0, []⟩ = false := by decide +kernel

/-- A program with two failures, one of them a call ended by an exception. -/
example : (run (V := Nat) false (.seq (.call (.seq (.assert fun s => (.val false, s)) (.code fun s => (.thrown (.std 3), s))))
    (.fail (.code fun s => (.thrown (.other 1), s)))) (0 : Nat)).failed = 1 ∧
    main (V := Nat) false (.seq (.call (.seq (.assert fun s => (.val false, s)) (.code fun s => (.thrown (.std 3), s))))
    (.fail (.code fun s => (.thrown (.other 1), s)))) (0 : Nat) = .status 2 := by decide +kernel

end Helper.TestC
