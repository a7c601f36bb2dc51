import Verif.Tests.Model
import Verif.Double.Props
import Verif.StackTrace.Props
/-!
# Property C99: the project's tests pass
-/
set_option linter.unusedSectionVars false
namespace Helper.Tests

open Helper.Macro Helper.TestC

/-! ## LRUCache -/

/-- C99: the test of `LRUCache` passes, with either order of evaluation. -/
theorem C99_lru (rtl : Bool) : outcome rtl (Lru.test lruApi) Lru.init = .status 0 := by
  cases rtl <;> decide +kernel

/-- C99: the test does not pass with these wrong implementations: a cache of maximum size 0 may be constructed; `get` does not make the element
the youngest; a full cache does not drop an element; `put` throws in a cache that is full. -/
theorem C99_lru_wrong (rtl : Bool) :
    outcome rtl (Lru.test { lruApi with construct := fun n => .ok (LRU.empty n) }) Lru.init = .status 1 ∧
    outcome rtl (Lru.test { lruApi with get := fun c l => ((lruApi.get c l).1, c) }) Lru.init = .status 3 ∧
    outcome rtl (Lru.test { lruApi with put := fun c l v =>
      let r := LRU.put { c with maximumSize := c.maximumSize + 1 } l (.ext v) none; (r.1, { r.2 with maximumSize := c.maximumSize }) }) Lru.init = .status 2 ∧
    outcome rtl (Lru.test { lruApi with put := fun c l v =>
      if c.elements.length = c.maximumSize then (.exn .runtimeError, c) else LRU.put c l (.ext v) none }) Lru.init = .status 1 := by
  cases rtl <;> decide +kernel

theorem ltChars_total (a b : List Char) (h1 : ltChars a b = false) (h2 : ltChars b a = false) : a = b := by
  induction a generalizing b with
  | nil => cases b with
    | nil => rfl
    | cons y b => simp [ltChars] at h1
  | cons x a ih => cases b with
    | nil => simp [ltChars] at h2
    | cons y b =>
      simp only [ltChars] at h1 h2
      split at h1
      · cases h1
      · split at h2
        · cases h2
        · rw [if_neg (by omega)] at h1
          rw [ih b h1 h2, Char.toNat_inj.1 (show x.toNat = y.toNat by omega)]

/-- The order of the labels is a strict total order. -/
theorem C99_labels : StrictTotal (List Char) where
  irrefl a := by
    show ltChars a a = false
    induction a with
    | nil => rfl
    | cons x a ih => simp [ltChars, ih]
  trans {a b c} h1 h2 := by
    change ltChars a b = true at h1
    change ltChars b c = true at h2
    show ltChars a c = true
    induction a generalizing b c with
    | nil =>
      cases b with
      | nil => simp [ltChars] at h1
      | cons y b => cases c with
        | nil => simp [ltChars] at h2
        | cons z c => rfl
    | cons x a ih =>
      cases b with
      | nil => simp [ltChars] at h1
      | cons y b => cases c with
        | nil => simp [ltChars] at h2
        | cons z c =>
          simp only [ltChars] at h1 h2 ⊢
          split at h1
          · split at h2
            · rw [if_pos (by omega)]
            · split at h2
              · cases h2
              · rw [if_pos (by omega)]
          · split at h1
            · cases h1
            · split at h2
              · rw [if_pos (by omega)]
              · split at h2
                · cases h2
                · rw [if_neg (by omega), if_neg (by omega)]
                  exact ih h1 h2
  equivTrans {a b c} h1 h2 := by
    rw [Cmp.equiv_iff] at h1 h2
    rw [ltChars_total a b h1.1 h1.2]
    exact Cmp.equiv_iff.2 h2
  eq_of_equiv {a b} h := by
    rw [Cmp.equiv_iff] at h
    exact ltChars_total a b h.1 h.2

/-! ## Containers -/

/-- C99: the test of the containers passes. -/
theorem C99_container (rtl : Bool) : outcome rtl Cont.test Cont.init = .status 0 := by
  cases rtl <;> decide +kernel

/-! ## Arrays -/

/-- C99: the test of `Array` passes if there is memory, all elements are destroyed and all memory is returned. -/
theorem C99_array (rtl : Bool) :
    outcome rtl Array.test (Arr.St.init []) = .status 0 ∧
    let s := (exec rtl Array.test ⟨⟨none, Arr.St.init []⟩, 0, 0⟩).2.u.s
    s.built = 8 ∧ s.destroyed = 8 ∧ s.lost = 0 ∧ s.next = 4 ∧ ∀ b < 4, s.blocks b = none := by
  cases rtl <;> decide +kernel

/-! ## Lazy -/

theorem lazy_run (rtl : Bool) (f : Nat → Lazy.Outcome) (u : Lazy.Outcome) (h : f 0 = u) :
    exec rtl (Lz.test f) ⟨⟨none, Lz.init⟩, 0, 0⟩ = exec rtl (Lz.test fun _ => u) ⟨⟨none, Lz.init⟩, 0, 0⟩ := by
  cases rtl <;> subst h <;>
  simp [exec, M.bind, M.lift, call, M.tryCatch, block, upd, lift, look, Exp.bind, Exp.pure, Lz.test, Lz.creation, Lz.step, Lz.call, Lz.init,
    Lazy.step, Lazy.World.init, Lazy.eval, Lazy.World.get, equal, print, show_, Exp.both, M.pure]

/-- C99: the test of `Lazy` passes if there is memory: the factory is called once, and the object is deleted. Without memory one failure is
reported. -/
theorem C99_lazy (rtl : Bool) (f : Nat → Lazy.Outcome) :
    (f 0 = .obj → outcome rtl (Lz.test f) Lz.init = .status 0 ∧
      (exec rtl (Lz.test f) ⟨⟨none, Lz.init⟩, 0, 0⟩).2.u.s.w.calls = [0] ∧ (exec rtl (Lz.test f) ⟨⟨none, Lz.init⟩, 0, 0⟩).2.u.s.w.deleted = [0]) ∧
    (f 0 = .throws .badAlloc ∨ f 0 = .noBlock → outcome rtl (Lz.test f) Lz.init = .status 1) := by
  have o : ∀ u, f 0 = u → outcome rtl (Lz.test f) Lz.init = outcome rtl (Lz.test fun _ => u) Lz.init := fun u h => by
    simp only [outcome, main, lazy_run rtl f u h]
  refine ⟨fun h => ?_, fun h => ?_⟩
  · rw [o _ h, lazy_run rtl f _ h]
    cases rtl <;> decide +kernel
  · rcases h with h | h
    · rw [o _ h]
      cases rtl <;> decide +kernel
    · rw [o _ h]
      cases rtl <;> decide +kernel

/-! ## Stopwatch -/

theorem tdiv_gt (d : Int) : 10000 < d.tdiv 1000 ↔ 10001000 ≤ d := by
  by_cases h : 0 ≤ d
  · rw [Int.tdiv_eq_ediv_of_nonneg h]; omega
  · have e : d = -(-d) := by omega
    rw [e, Int.neg_tdiv, Int.tdiv_eq_ediv_of_nonneg (by omega)]
    omega

/-- The conversion to `double` does not change the second check. -/
theorem seconds_gt (d : Int) : Double.round 53 (1 / 100) < Double.castSeconds 53 1 1000000 d ↔ 10000 < d := by
  have e : Double.round 53 (1 / 100) = Double.castSeconds 53 1 1000000 10000 := by decide +kernel
  rw [e]
  constructor
  · intro h
    rcases Int.lt_or_le 10000 d with h' | h'
    · exact h'
    · have := Double.C102_order (p := 53) (by decide) (num := 1) (den := 1000000) (by decide) (by decide) h'
      exact absurd h (Rat.not_lt.2 this)
  · intro h
    have h1 := Double.C102_order (p := 53) (by decide) (num := 1) (den := 1000000) (by decide) (by decide) (show 10001 ≤ d by omega)
    have h2 := Double.C102_distinct_partial (p := 53) (by decide) (den := 1000000) (q := 10000) (r := 10001) (by decide) (by decide)
      (by decide) (by decide) (by decide)
    grind

theorem watch_run (rtl : Bool) (clock : Nat → Int) (h : -2 ^ 63 ≤ clock 2 - clock 1) (h' : clock 2 - clock 1 < 2 ^ 63) :
    exec rtl (Watch.test clock) ⟨⟨none, Watch.init⟩, 0, 0⟩ =
    (.val (), ⟨⟨none, ⟨3, ⟨3, clock 1, clock 2⟩⟩⟩, if 10001000 ≤ clock 2 - clock 1 then 0 else 2, 0⟩) := by
  have hs : Stopwatch.sub64 (clock 2) (clock 1) = .ok (clock 2 - clock 1) := if_pos ⟨h, h'⟩
  have hd : Stopwatch.duration 1000 ⟨3, clock 1, clock 2⟩ = .ok ((clock 2 - clock 1).tdiv 1000) := by
    simp [Stopwatch.duration, hs, Res.bind]
  have he : Double.elapsed 53 1 1000000 1000 ⟨3, clock 1, clock 2⟩ =
      .ok (Double.castSeconds 53 1 1000000 ((clock 2 - clock 1).tdiv 1000)) := by
    rw [Double.elapsed, hd]; rfl
  by_cases hc : 10001000 ≤ clock 2 - clock 1
  · have h1 := (tdiv_gt _).2 hc
    have h2 := (seconds_gt _).2 h1
    simp [exec, M.bind, M.lift, call, M.tryCatch, block, upd, lift, look, Watch.test, Watch.create, Watch.duration, Watch.make, Watch.init,
      Stopwatch.restart, Stopwatch.click, assert, hd, he, Res.bind, h1, h2, hc, M.pure]
  · have h1 : ¬ 10000 < (clock 2 - clock 1).tdiv 1000 := fun h => hc ((tdiv_gt _).1 h)
    have h2 : ¬ Double.round 53 (1 / 100) < Double.castSeconds 53 1 1000000 ((clock 2 - clock 1).tdiv 1000) := fun h => h1 ((seconds_gt _).1 h)
    simp [exec, M.bind, M.lift, call, M.tryCatch, block, upd, lift, look, Watch.test, Watch.create, Watch.duration, Watch.make, Watch.init,
      Stopwatch.restart, Stopwatch.click, assert, hd, he, Res.bind, h1, h2, hc, incr]

/-- C99: the test of `Stopwatch` passes if the clock moves by at least 10.001 milliseconds during the sleep. -/
theorem C99_stopwatch_partial (rtl : Bool) (clock : Nat → Int) (h : 10001000 ≤ clock 2 - clock 1) (h' : clock 2 - clock 1 < 2 ^ 63) :
    outcome rtl (Watch.test clock) Watch.init = .status 0 := by
  simp [outcome, main, watch_run rtl clock (by omega) h', h]

/-- C99 is false for a clock that moves by less than this, also if it moves by the 10 milliseconds of the sleep: both checks fail. -/
theorem C99_stopwatch_refuted (rtl : Bool) (clock : Nat → Int) (h : clock 2 - clock 1 < 10001000) (h' : -2 ^ 63 ≤ clock 2 - clock 1) :
    outcome rtl (Watch.test clock) Watch.init = .status 2 := by
  simp [outcome, main, watch_run rtl clock h' (by omega), show ¬ 10001000 ≤ clock 2 - clock 1 by omega]

/-- A clock that moves by exactly 10 milliseconds during the sleep, as `sleep_for` promises. -/
example : outcome false (Watch.test fun k => k * 10000000) Watch.init = .status 2 := C99_stopwatch_refuted _ _ (by decide) (by decide)
example : outcome false (Watch.test fun k => k * 10100000) Watch.init = .status 0 := C99_stopwatch_partial _ _ (by decide) (by decide)

/-! ## Randomisers -/

/-- The values drawn one after the other. -/
def drawn {E V : Type} (get : E → V × E) : Nat → E → List V × E
  | 0, e => ([], e)
  | n + 1, e => let x := get e; let r := drawn get n x.2; (x.1 :: r.1, r.2)

theorem drawInts_eq {E : Type} (d : Rnd.Dists E) (r : Randomiser.Randomiser Int) (n : Nat) (s : Rnd.Vars E) :
    Rnd.drawInts d r n s = { s with e := (drawn (d.int r.min r.max) n s.e).2, ints := s.ints ++ (drawn (d.int r.min r.max) n s.e).1 } := by
  induction n generalizing s with
  | zero => simp [Rnd.drawInts, drawn]
  | succ n ih => simp [Rnd.drawInts, drawn, ih, Randomiser.get, ListC.append]

theorem drawReals_eq {E : Type} (d : Rnd.Dists E) (r : Randomiser.Randomiser Rat) (n : Nat) (s : Rnd.Vars E) :
    Rnd.drawReals d r n s = { s with e := (drawn (d.real r.min r.max) n s.e).2, reals := s.reals ++ (drawn (d.real r.min r.max) n s.e).1 } := by
  induction n generalizing s with
  | zero => simp [Rnd.drawReals, drawn]
  | succ n ih => simp [Rnd.drawReals, drawn, ih, Randomiser.get, ListC.append]

/-- C99: the test of the randomisers passes with every generator and every distribution, for any number of tries; the reals are drawn after
the integers from the same generator. -/
theorem C99_randomiser {E : Type} (rtl : Bool) (d : Rnd.Dists E) (n : Nat) (e : E) :
    outcome rtl (Rnd.test d n) ⟨e, [], []⟩ = .status 0 ∧
    (exec rtl (Rnd.test d n) ⟨⟨none, ⟨e, [], []⟩⟩, 0, 0⟩).2.u.s =
      ⟨(drawn (d.real 0 1) n (drawn (d.int 0 255) n e).2).2, (drawn (d.int 0 255) n e).1, (drawn (d.real 0 1) n (drawn (d.int 0 255) n e).2).1⟩ := by
  have h : exec rtl (Rnd.test d n) ⟨⟨none, ⟨e, [], []⟩⟩, 0, 0⟩ = (.val (), ⟨⟨none,
      ⟨(drawn (d.real 0 1) n (drawn (d.int 0 255) n e).2).2, (drawn (d.int 0 255) n e).1, (drawn (d.real 0 1) n (drawn (d.int 0 255) n e).2).1⟩⟩, 0, 0⟩) := by
    have h1 : Randomiser.make (0 : Int) 255 = .ok ⟨0, 255⟩ := rfl
    have h2 : Randomiser.make (0 : Rat) 1 = .ok ⟨0, 1⟩ := rfl
    simp [exec, M.bind, M.lift, call, M.tryCatch, block, upd, lift, look, Rnd.test, Rnd.int, Rnd.real, h1, h2, Res.bind, drawInts_eq, drawReals_eq,
      print, show_, M.pure]
  simp [outcome, main, h]

/-! ## Stack traces -/

theorem trace_ok (rtl enabled : Bool) (y1 y2 : Trace.Sys) (s s1 s2 : StackTrace.St)
    (h1 : (if enabled then StackTrace.stackTrace y1.ptr y1.mem y1.ndebug y1.stack s else StackTrace.stackTraceDisabled s) = .ok s1)
    (h2 : (if enabled then StackTrace.stackTrace y2.ptr y2.mem y2.ndebug y2.stack s1 else StackTrace.stackTraceDisabled s1) = .ok s2) :
    outcome rtl (Trace.test enabled y1 y2) s = .status 0 := by
  simp [outcome, main, exec, M.bind, M.lift, call, M.tryCatch, block, upd, lift, Trace.test, Trace.trace, h1, h2]

/-- C99: the test of stack traces passes if they are disabled, or if there is memory and every frame has a name or no symbol information at all. -/
theorem C99_trace_partial (rtl enabled : Bool) (y1 y2 : Trace.Sys) (s : StackTrace.St)
    (h : enabled = true → ∀ y, y = y1 ∨ y = y2 → y.mem = true ∧ StackTrace.Named (y.stack.take 128)) :
    outcome rtl (Trace.test enabled y1 y2) s = .status 0 := by
  cases enabled with
  | false => exact trace_ok rtl false y1 y2 s s s rfl rfl
  | true =>
    obtain ⟨m1, n1⟩ := h rfl y1 (.inl rfl)
    obtain ⟨m2, n2⟩ := h rfl y2 (.inr rfl)
    obtain ⟨l1, _, _, e1⟩ := StackTrace.C66_named_partial y1.ptr y1.ndebug y1.stack s n1
    obtain ⟨l2, _, _, e2⟩ := StackTrace.C66_named_partial y2.ptr y2.ndebug y2.stack ⟨s.out ++ StackTrace.text l1, s.live⟩ n2
    exact trace_ok rtl true y1 y2 s _ _ (by rw [m1]; exact e1) (by rw [m2]; exact e2)

/-- C99 is false if a frame has no name, and if there is no memory. -/
theorem C99_trace_refuted (rtl : Bool) (y1 y2 : Trace.Sys) (s : StackTrace.St) :
    ((y1.mem = true ∧ ∃ a f b, y1.stack = a ++ f :: b ∧ a.length < 128 ∧ StackTrace.Named a ∧ f.dl = some none ∧ f.demangled = none) →
      outcome rtl (Trace.test true y1 y2) s = .ub) ∧
    ((y1.mem = false ∧ y1.ndebug = false) → outcome rtl (Trace.test true y1 y2) s = .aborted) := by
  constructor
  · rintro ⟨m, a, f, b, e, ha, hn, hd, hm⟩
    have := StackTrace.C66_noName_refuted y1.ptr y1.ndebug a b f s ha hn hd hm
    simp [outcome, exec, M.bind, M.lift, call, M.tryCatch, block, upd, lift, Trace.test, Trace.trace, m, e, this]
  · rintro ⟨m, n⟩
    simp [outcome, exec, M.bind, M.lift, call, M.tryCatch, block, upd, lift, Trace.test, Trace.trace, m, n,
      (StackTrace.C66_memory_refuted y1.ptr y1.stack s).1]

/-- Two frames: `main`, and one outside all object files. -/
def exampleSys : Trace.Sys := ⟨fun _ => ['0', 'x', '1'], true, false, [⟨1, some (some ['m', 'a', 'i', 'n']), none⟩, ⟨2, none, none⟩]⟩

example : outcome true (Trace.test true exampleSys exampleSys) ⟨[], 0⟩ = .status 0 :=
  C99_trace_partial _ _ _ _ _ fun _ y hy => by
    have : y = exampleSys := by rcases hy with h | h <;> exact h
    subst this
    refine ⟨rfl, fun f hf n hn => ?_⟩
    simp [exampleSys] at hf
    rcases hf with rfl | rfl
    · cases hn; exact .inr rfl
    · cases hn

/-- Test macros tell the exceptions of the components apart: those that they catch by a class of the standard library, and those of user code, which they
catch by `...` only. -/
theorem C99_exceptions : (∀ e e', thrown e = thrown e' → e = e') ∧ ∀ e, (∃ n, thrown e = .other n) ↔ ∃ n, e = .user n := by
  constructor
  · intro e e' h
    cases e <;> cases e' <;> simp_all [thrown]
  · intro e
    cases e <;> simp [thrown]

example : thrown .runtimeError ≠ thrown .outOfRange ∧ thrown (.user 3) = .other 3 := by decide

end Helper.Tests
