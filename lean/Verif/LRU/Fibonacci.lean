import Verif.LRU.Recursive
/-!
# C130: the Fibonacci numbers, memoised

Two ways to write the recursion: with copies of the results, and with the references that `memo` returns.
-/
set_option linter.unusedSectionVars false
namespace Helper.LRU.Recursive
open Helper.LRU

/-- `int a = memo(x-1); int b = memo(x-2); return a+b;` -/
def fibCopies : Nat → Body Nat Nat
  | 0 => .ret 0
  | 1 => .ret 1
  | x + 2 => .ask (x + 1) (.look 0 fun a => .ask x (.look 0 fun b => .ret (a + b)))

/-- `int const& a = memo(x-1); int const& b = memo(x-2); return a+b;` -/
def fibRefs : Nat → Body Nat Nat
  | 0 => .ret 0
  | 1 => .ret 1
  | x + 2 => .ask (x + 1) (.ask x (.look 1 fun a => .look 0 fun b => .ret (a + b)))

/-- The Fibonacci numbers. -/
def fib : Nat → Nat
  | 0 => 0
  | 1 => 1
  | x + 2 => fib (x + 1) + fib x

/-- The number of calls that the recursion makes without a cache. -/
def calls : Nat → Nat
  | 0 => 1
  | 1 => 1
  | x + 2 => 1 + calls (x + 1) + calls x

theorem fib_equiv (x y : Nat) (h : Cmp.equiv x y = true) : (Except.ok (fib x) : Except Exn Nat) = .ok (fib y) ∧ id x = id y := by
  rw [Cmp.equiv_eq] at h
  rw [of_decide_eq_true h]
  exact ⟨rfl, rfl⟩

theorem fibCopies_defines : Defines (fun x => .ok (fib x)) fibCopies id where
  value x := by match x with | 0 => rfl | 1 => rfl | x + 2 => rfl
  less x y hy := by
    match x with
    | 0 => cases hy
    | 1 => cases hy
    | x + 2 =>
      simp only [fibCopies, asks, List.getElem?_cons_zero, List.mem_cons, List.not_mem_nil, or_false] at hy
      rcases hy with rfl | rfl
      · exact Nat.lt_succ_self _
      · show y < y + 2; omega
  equiv := fib_equiv

theorem fibRefs_defines : Defines (fun x => .ok (fib x)) fibRefs id where
  value x := by match x with | 0 => rfl | 1 => rfl | x + 2 => rfl
  less x y hy := by
    match x with
    | 0 => cases hy
    | 1 => cases hy
    | x + 2 =>
      simp only [fibRefs, asks, List.getElem?_cons_succ, List.getElem?_cons_zero, List.mem_cons, List.not_mem_nil, or_false] at hy
      rcases hy with rfl | rfl
      · exact Nat.lt_succ_self _
      · show y < y + 2; omega
  equiv := fib_equiv

theorem fibCopies_prompt (x : Nat) : Prompt false (fibCopies x) := by
  match x with
  | 0 => trivial
  | 1 => trivial
  | x + 2 => exact ⟨rfl, rfl, fun _ => ⟨rfl, rfl, fun _ => trivial⟩⟩

theorem fibRefs_closed (x : Nat) : Closed (fun x => .ok (fib x)) fibRefs (List.range (x + 1)) := by
  intro y hy z hz
  have h1 := fibRefs_defines.less y z hz
  obtain ⟨w, hw, hwy⟩ := occurs_iff.1 hy
  rw [Cmp.equiv_eq] at hwy
  have := of_decide_eq_true hwy
  have h2 := List.mem_range.1 hw
  refine occurs_iff.2 ⟨z, List.mem_range.2 ?_, by simp⟩
  simp only [id] at h1
  omega

/-- C130: with copies the Fibonacci numbers are right, for every capacity. -/
theorem C130_fibonacci {n : Nat} (hn : 0 < n) (xs : List Nat) : ∃ fuel c ev,
    history fibCopies fuel xs (empty n) = some (xs.map (fun x => .ok (fib x)), c, ev) := by
  obtain ⟨c, ev, h⟩ := C130_value_partial hn fibCopies_defines fibCopies_prompt xs (fuel := xs.foldr max 0 + 1) (by
    intro x hx
    have : ∀ l : List Nat, x ∈ l → x ≤ l.foldr max 0 := by
      intro l; induction l with
      | nil => intro h; cases h
      | cons y l ih =>
        intro h
        rcases List.mem_cons.1 h with rfl | h
        · exact Nat.le_max_left _ _
        · exact Nat.le_trans (ih h) (Nat.le_max_right _ _)
    have := this xs hx
    show x < _
    omega)
  exact ⟨_, c, ev, h⟩

/-- C130: with references they are right if there is room for all arguments, and each is computed once. -/
theorem C130_fibonacci_refs (x : Nat) : ∃ c ev, history fibRefs (x + 1) [x] (empty (x + 1)) = some ([.ok (fib x)], c, ev) ∧ ev.length ≤ x + 1 := by
  obtain ⟨c, ev, h, h'⟩ := C130_once_partial (n := x + 1) fibRefs_defines (fibRefs_closed x) (by simp) (by omega) [x] (fuel := x + 1) (by
    intro y hy
    rw [List.mem_singleton] at hy; subst hy
    exact ⟨Nat.lt_succ_self _, occurs_iff.2 ⟨y, by simp, by simp⟩⟩)
  refine ⟨c, ev, h, ?_⟩
  obtain ⟨hd, hl⟩ := h' fun y _ => ⟨_, rfl⟩
  obtain ⟨c', ev', g1, g2, _⟩ := history_works (n := x + 1) fibRefs_defines (G := True) (S := List.range (x + 1)) (fuel := x + 1)
    (fun _ => ⟨fibRefs_closed x, by simp⟩) (.inl trivial) [x] (empty (x + 1)) (right_empty (by omega))
    (by intro _ y hy; simp [hasLabel, empty, OMap.find] at hy)
    (by intro y hy; rw [List.mem_singleton] at hy; subst hy; exact ⟨Nat.lt_succ_self _, fun _ => occurs_iff.2 ⟨y, by simp, by simp⟩⟩)
  rw [h] at g1
  simp only [Option.some.injEq, Prod.mk.injEq] at g1
  obtain ⟨_, rfl, rfl⟩ := g1
  have hlen := Distinct.length_le hd (Q := c.elements.map Prod.fst) (by
    intro p hp
    have := (hl p).2 (occurs_iff.2 ⟨p, hp, by simp⟩)
    obtain ⟨e, he, hep⟩ := hasLabel_true this
    exact occurs_iff.2 ⟨e.1, List.mem_map_of_mem he, hep⟩)
  obtain ⟨s, hs⟩ := g2.rep
  have h1 := hs.length_eq; have h2 := hs.len; have h3 := hs.max; have h4 := g2.max
  rw [List.length_map] at hlen
  omega

/-- **C130, refuted** for references: with capacity 2, `a` refers to an element that computing `b` has evicted. -/
theorem C130_refs_refuted : ∃ c ev, history fibRefs 5 [4] (empty 2) = some ([.ub .dangling], c, ev) := by
  refine ⟨(((history fibRefs 5 [4] (empty 2)).map fun q => q.2.1).getD (empty 2)), (((history fibRefs 5 [4] (empty 2)).map fun q => q.2.2).getD []), ?_⟩
  have h : ((history fibRefs 5 [4] (empty 2)).map fun q => q.1) = some [.ub .dangling] := by decide +kernel
  cases hh : history fibRefs 5 [4] (empty 2) with
  | none => rw [hh] at h; cases h
  | some q =>
    rw [hh] at h
    simp only [Option.map_some, Option.some.injEq] at h
    simp only [Option.map_some, Option.getD_some, ← h]

/-! ## A cache of one element -/

theorem put_one {f : Nat → Except Exn Nat} {c : Cache Nat Nat} (h : Right f 1 c) {x v : Nat} {c' : Cache Nat Nat} (hp : put c x (.ext v) none = (.ok (), c')) (y : Nat) :
    hasLabel c' y = true ↔ y = x := by
  obtain ⟨s, hs⟩ := h.rep
  rcases put_refine hs x v with ⟨c1, h1, _, h3, _⟩ | ⟨h1, _, _⟩
  · rw [hp] at h1
    cases h1
    have hcap : s.cap - 1 = 0 := by have := hs.max; have := h.max; omega
    rw [h3.has_eq, hcap]
    simp only [Spec.has, List.take_zero, List.any_cons, List.any_nil, Bool.or_false]
    rw [Cmp.equiv_eq]
    simp [eq_comm]
  · rw [hp] at h1; cases h1

/-- C130: a cache of one element saves nothing: the body is run as often as without a cache. -/
theorem one_calls : ∀ (x fuel : Nat) (c : Cache Nat Nat), x < fuel → Right (fun x => .ok (fib x)) 1 c → (∀ y, y ≤ x → hasLabel c y = false) →
    ∃ r c' ev, memo fibCopies fuel c x = some (.ok r, c', ev) ∧ Right (fun x => .ok (fib x)) 1 c' ∧ readRef c' r = .ok (fib x) ∧
      (∀ y, hasLabel c' y = true ↔ y = x) ∧ ev.length = calls x := by
  intro x
  induction x using Nat.strongRecOn with
  | ind x ih =>
    intro fuel c hfuel hr hno
    obtain ⟨fuel, rfl⟩ : ∃ k, fuel = k + 1 := ⟨fuel - 1, by omega⟩
    -- the end of the call, once the body has been run
    have finish : ∀ c1 ev, runBody (memo fibCopies fuel) (fibCopies x) [] c = some (.ok (fib x), c1, ev) → Right (fun x => .ok (fib x)) 1 c1 →
        hasLabel c1 x = false → ev.length + 1 = calls x →
        ∃ r c' ev, memo fibCopies (fuel + 1) c x = some (.ok r, c', ev) ∧ Right (fun x => .ok (fib x)) 1 c' ∧ readRef c' r = .ok (fib x) ∧
          (∀ y, hasLabel c' y = true ↔ y = x) ∧ ev.length = calls x := by
      intro c1 ev hb hr1 hx1 hev
      obtain ⟨c2, p1, p2, p3, _⟩ := put_right hr1 hx1 (v := fib x) rfl
      obtain ⟨r, c3, w, q1, q2, q3, q4, q5⟩ := fetch_right p2 (fun y hy => (fibCopies_defines.equiv x y hy).1) p3 (ev ++ [x])
      cases q3
      refine ⟨r, c3, ev ++ [x], by simp [memo, hno x (Nat.le_refl _), hb, p1, q1], q2, q4, fun y => ?_, by simp [hev]⟩
      rw [q5.has, ← put_one hr1 p1 y]
      simp [occurs]
    match x with
    | 0 => exact finish c [] rfl hr (hno 0 (Nat.le_refl _)) rfl
    | 1 => exact finish c [] rfl hr (hno 1 (Nat.le_refl _)) rfl
    | x + 2 =>
      obtain ⟨r1, c1, ev1, a1, a2, a3, a4, a5⟩ := ih (x + 1) (by omega) fuel c (by omega) hr fun y hy => hno y (by omega)
      obtain ⟨r2, c2, ev2, b1, b2, b3, b4, b5⟩ := ih x (by omega) fuel c1 (by omega) a2 fun y hy => by
        cases h : hasLabel c1 y with
        | false => rfl
        | true => have := (a4 y).1 h; omega
      refine finish c2 (ev1 ++ ev2) ?_ b2 ?_ ?_
      · simp [fibCopies, runBody, a1, a3, b1, b3, fib]
      · cases h : hasLabel c2 (x + 2) with
        | false => rfl
        | true => have := (b4 _).1 h; omega
      · simp [calls, a5, b5]; omega

/-- C130: with a cache of one element, as many runs of the body as without. -/
theorem C130_one (x : Nat) : ∃ c ev, history fibCopies (x + 1) [x] (empty 1) = some ([.ok (fib x)], c, ev) ∧ ev.length = calls x := by
  obtain ⟨r, c, ev, h1, _, h3, _, h5⟩ := one_calls x (x + 1) (empty 1) (by omega) (right_empty (by decide)) (by
    intro y _; simp [hasLabel, empty, OMap.find])
  exact ⟨c, ev, by simp [history, h1, h3], h5⟩

/-- That is exponential in the argument. -/
theorem C130_exponential (x : Nat) : calls x = 2 * fib (x + 1) - 1 ∧ 2 ^ (x / 2) ≤ calls x := by
  have h : ∀ x, calls x + 1 = 2 * fib (x + 1) ∧ calls (x + 1) + 1 = 2 * fib (x + 2) := by
    intro x
    induction x with
    | zero => exact ⟨rfl, rfl⟩
    | succ x ih =>
      refine ⟨ih.2, ?_⟩
      have e1 : calls (x + 2) = 1 + calls (x + 1) + calls x := rfl
      have e2 : fib (x + 3) = fib (x + 2) + fib (x + 1) := rfl
      show calls (x + 2) + 1 = 2 * fib (x + 3)
      omega
  have g : ∀ x, 2 ^ (x / 2) ≤ calls x ∧ 2 ^ ((x + 1) / 2) ≤ calls (x + 1) := by
    intro x
    induction x with
    | zero => decide
    | succ x ih =>
      refine ⟨ih.2, ?_⟩
      have e1 : calls (x + 2) = 1 + calls (x + 1) + calls x := rfl
      have e2 : (x + 1 + 1) / 2 = x / 2 + 1 := by omega
      have e3 : 2 ^ (x / 2) ≤ 2 ^ ((x + 1) / 2) := Nat.pow_le_pow_right (by decide) (by omega)
      rw [e2, Nat.pow_succ]
      show _ ≤ calls (x + 2)
      omega
  exact ⟨by have := (h x).1; omega, (g x).1⟩

/-- **C130, refuted**: with a cache of one element, some argument is evaluated twice. -/
theorem C130_refuted : ((history fibCopies 4 [3] (empty 1)).map fun q => q.2.2) = some [1, 0, 2, 1, 3] := by decide +kernel

/-- Capacity 3 is enough for references here, and each number is computed once for each call of the client. -/
example : ((history fibRefs 21 [20, 10] (empty 3)).map fun q => (q.1, q.2.2.length)) = some ([.ok 6765, .ok 55], 32) := by decide +kernel

example : ((history fibRefs 21 [20, 10] (empty 21)).map fun q => (q.1, q.2.2.length)) = some ([.ok 6765, .ok 55], 21) := by decide +kernel

/-- A recursion that throws: what it has computed stays in the cache. -/
def halves (x : Nat) : Body Nat Nat :=
  if x = 0 then .raise .outOfRange else if x % 2 = 1 then .ret x else .ask (x / 2) (.look 0 .ret)

example : ((history halves 9 [12, 0, 6, 3] (empty 2)).map fun q => (q.1, q.2.2)) =
    some ([.ok 3, .exn .outOfRange, .ok 3, .ok 3], [3, 6, 12, 0, 3]) := by decide +kernel

end Helper.LRU.Recursive
