import Verif.LRU.Fibonacci
/-!
# C130: the Fibonacci numbers with references and a small cache

The results of the two calls are used through references into the cache. With three elements that is safe from an empty cache, although the labels
evicted meanwhile are many; it is not safe from every cache that such calls leave behind.
-/
set_option linter.unusedSectionVars false
namespace Helper.LRU.Recursive
open Helper.LRU

/-- The labels of the cache, the one used last first. -/
def Order (c : Cache Nat Nat) (xs : List Nat) : Prop := ∃ s, Rep c s ∧ s.items.map Prod.fst = xs

/-- The reference `r` is to the value of label `x`. -/
def Refers (c : Cache Nat Nat) (r x : Nat) : Prop := ∃ e ∈ c.elements, e.1 = x ∧ e.2.node = r

abbrev fibOk (x : Nat) : Except Exn Nat := .ok (fib x)

variable {n : Nat} {c c' : Cache Nat Nat} {xs : List Nat}

theorem nat_equiv {x y : Nat} : Cmp.equiv x y = true ↔ x = y := by rw [Cmp.equiv_eq]; simp

theorem Order.has (h : Order c xs) (x : Nat) : hasLabel c x = true ↔ x ∈ xs := by
  obtain ⟨s, hs, rfl⟩ := h
  rw [hs.has_eq]
  simp only [Spec.has, List.any_eq_true, nat_equiv, List.mem_map]

theorem Refers.read (hr : Right fibOk n c) {r x : Nat} (h : Refers c r x) : readRef c r = .ok (fib x) := by
  obtain ⟨s, hs⟩ := hr.rep
  obtain ⟨e, he, rfl, rfl⟩ := h
  refine (readRef_ok hs).2 ⟨e, he, rfl, ?_⟩
  have := hr.vals e he
  simp only [fibOk, Except.ok.injEq] at this
  exact this.symm

theorem Refers.step (h : NodeStep c c') {r x : Nat} (hr : Refers c r x) (hx : hasLabel c' x = true) : Refers c' r x := by
  obtain ⟨e, he, rfl, rfl⟩ := hr
  obtain ⟨e', he', h1, h2, _⟩ := h.kept e he hx
  exact ⟨e', he', h2.symm, h1.symm⟩

theorem put_step (hr : Right fibOk n c) (ho : Order c xs) {x : Nat} (hx : x ∉ xs) :
    ∃ c', put c x (.ext (fib x)) none = (.ok (), c') ∧ Right fibOk n c' ∧ Order c' (x :: xs.take (n - 1)) ∧ NodeStep c c' := by
  have hx' : hasLabel c x = false := by
    cases h : hasLabel c x with
    | false => rfl
    | true => exact absurd ((ho.has x).1 h) hx
  obtain ⟨c1, p1, p2, _⟩ := put_right hr hx' (v := fib x) rfl
  obtain ⟨s, hs, rfl⟩ := ho
  refine ⟨c1, p1, p2, ?_, by have := put_nodeStep hs x (fib x); rwa [p1] at this⟩
  rcases put_refine hs x (fib x) with ⟨c2, h1, _, h3, _⟩ | ⟨h1, _, _⟩
  · rw [p1] at h1
    cases h1
    have hcap : s.cap = n := by have := hs.max; have := hr.max; omega
    exact ⟨_, h3, by simp [hcap, List.map_take]⟩
  · rw [p1] at h1; cases h1

theorem fetch_step (hr : Right fibOk n c) (ho : Order c xs) {x : Nat} (hx : x ∈ xs) (ev : List Nat) :
    ∃ r c', fetch c x ev = (.ok r, c', ev) ∧ Right fibOk n c' ∧ Order c' (x :: xs.filter (fun y => y ≠ x)) ∧ Refers c' r x ∧ NodeStep c c' := by
  obtain ⟨r, c1, w, q1, q2, _⟩ := fetch_right hr (fun y hy => by rw [nat_equiv.1 hy]) ((ho.has x).2 hx) ev
  obtain ⟨s, hs, rfl⟩ := ho
  have hst := get_nodeStep c x
  rcases get_refine hs x with ⟨v, r', h1, h2, h3⟩ | ⟨h1, _, _⟩
  · have hg : get c x = (.ok (v, r'), (get c x).2) := Prod.ext h1 rfl
    obtain ⟨e, he, hex, her, _⟩ := get_ok hg
    have hq : fetch c x ev = (.ok r', (get c x).2, ev) := by unfold fetch; rw [hg]
    rw [hq] at q1
    cases q1
    refine ⟨r, _, hq, q2, ⟨_, h3, ?_⟩, ⟨e, he, nat_equiv.1 hex, her⟩, hst⟩
    cases hf : s.items.find? (fun p => Cmp.equiv p.1 x) with
    | none => simp [Spec.call, hf] at h2
    | some p =>
      have hp := nat_equiv.1 (by simpa using List.find?_some hf : Cmp.equiv p.1 x = true)
      simp only [Spec.call, hf, List.map_cons, hp, List.cons.injEq, true_and]
      rw [List.filter_map]
      congr 1
      refine List.filter_congr fun q _ => ?_
      show (!Cmp.equiv q.1 x) = decide (q.1 ≠ x)
      rw [Cmp.equiv_eq]
      simp
  · have hq : fetch c x ev = (.exn .runtimeError, (get c x).2, ev) := by
      unfold fetch
      rw [show get c x = (.exn .runtimeError, (get c x).2) from Prod.ext h1 rfl]
    rw [hq] at q1; cases q1

/-- The labels used last after the call for `x`. -/
def top : Nat → List Nat
  | 0 => [0]
  | 1 => [1]
  | x + 2 => [x + 2, x, x + 1]

/-- The runs of the body for `x`, in the order in which they end. -/
def runs : Nat → List Nat
  | 0 => [0]
  | 1 => [1]
  | x + 2 => 1 :: 0 :: List.range' 2 (x + 1)

/-- The end of a call, once the body has been run. -/
theorem finish_three {x fuel : Nat} {c c1 : Cache Nat Nat} {ev ys : List Nat} (hx : hasLabel c x = false)
    (hb : runBody (memo fibRefs fuel) (fibRefs x) [] c = some (.ok (fib x), c1, ev)) (hr : Right fibOk n c1) (ho : Order c1 ys) (hy : x ∉ ys) :
    ∃ r c', memo fibRefs (fuel + 1) c x = some (.ok r, c', ev ++ [x]) ∧ Right fibOk n c' ∧ Order c' (x :: ys.take (n - 1)) ∧ Refers c' r x ∧
      ∀ r' y, Refers c1 r' y → y ∈ ys.take (n - 1) → Refers c' r' y := by
  obtain ⟨c2, p1, p2, p3, p4⟩ := put_step hr ho hy
  obtain ⟨r, c3, q1, q2, q3, q4, q5⟩ := fetch_step p2 p3 (x := x) (by simp) (ev ++ [x])
  have he : (x :: ys.take (n - 1)).filter (fun y => y ≠ x) = ys.take (n - 1) := by
    rw [List.filter_cons_of_neg (by simp)]
    refine List.filter_eq_self.2 fun y h => ?_
    have := List.mem_of_mem_take h
    simp only [ne_eq, decide_not, Bool.not_eq_true', decide_eq_false_iff_not]
    rintro rfl; exact hy this
  rw [he] at q3
  refine ⟨r, c3, by simp [memo, hx, hb, p1, q1], q2, q3, q4, fun r' y h1 h2 => ?_⟩
  refine Refers.step q5 (Refers.step p4 h1 ?_) ?_
  · exact (p3.has y).2 (List.mem_cons_of_mem _ h2)
  · exact (q3.has y).2 (List.mem_cons_of_mem _ h2)

theorem take_prefix {a rest : List Nat} {k : Nat} (h : a.length ≤ k) : (a ++ rest).take k = a ++ rest.take (k - a.length) := by
  rw [List.take_append, List.take_of_length_le h]

theorem three_calls (hn : 3 ≤ n) : ∀ (x fuel : Nat) (c : Cache Nat Nat) (xs : List Nat), x < fuel → Right fibOk n c → Order c xs → (∀ y ∈ xs, x < y) →
    ∃ r c' rest, memo fibRefs fuel c x = some (.ok r, c', runs x) ∧ Right fibOk n c' ∧ Order c' (top x ++ rest) ∧ Refers c' r x ∧
      (∀ y ∈ rest, y ∈ xs ∨ y + 2 < x) ∧
      (x ≤ 1 → rest = xs.take (n - 1) ∧ ∀ r' y, Refers c r' y → y ∈ xs.take (n - 1) → Refers c' r' y) := by
  intro x
  induction x using Nat.strongRecOn with
  | ind x ih =>
    intro fuel c xs hfuel hr ho hno
    obtain ⟨fuel, rfl⟩ : ∃ k, fuel = k + 1 := ⟨fuel - 1, by omega⟩
    have hlabel : hasLabel c x = false := by
      cases h : hasLabel c x with
      | false => rfl
      | true => have := hno x ((ho.has x).1 h); omega
    match x with
    | 0 =>
      obtain ⟨r, c', h1, h2, h3, h4, h5⟩ := finish_three (fuel := fuel) (ev := []) hlabel rfl hr ho (fun h => by have := hno 0 h; omega)
      exact ⟨r, c', xs.take (n - 1), h1, h2, h3, h4, fun y hy => .inl (List.mem_of_mem_take hy), fun _ => ⟨rfl, h5⟩⟩
    | 1 =>
      obtain ⟨r, c', h1, h2, h3, h4, h5⟩ := finish_three (fuel := fuel) (ev := []) hlabel rfl hr ho (fun h => by have := hno 1 h; omega)
      exact ⟨r, c', xs.take (n - 1), h1, h2, h3, h4, fun y hy => .inl (List.mem_of_mem_take hy), fun _ => ⟨rfl, h5⟩⟩
    | 2 =>
      obtain ⟨r1, c1, rest1, a1, a2, a3, a4, a5, _⟩ := ih 1 (by omega) fuel c xs (by omega) hr ho fun y hy => by have := hno y hy; omega
      have hrest : ∀ y ∈ rest1, 2 < y := fun y hy => by
        rcases a5 y hy with h | h
        · exact hno y h
        · omega
      obtain ⟨r2, c2, rest2, b1, b2, b3, b4, _, b6⟩ := ih 0 (by omega) fuel c1 (top 1 ++ rest1) (by omega) a2 a3 (by
        intro y hy
        simp only [top, List.cons_append, List.nil_append, List.mem_cons] at hy
        rcases hy with rfl | hy
        · omega
        · have := hrest y hy; omega)
      obtain ⟨b6, b7⟩ := b6 (by omega)
      have ht : (top 1 ++ rest1).take (n - 1) = [1] ++ rest1.take (n - 1 - 1) := take_prefix (show [1].length ≤ n - 1 by simp; omega)
      rw [ht] at b6 b7
      have hk : Refers c2 r1 1 := b7 r1 1 a4 (by simp)
      subst b6
      obtain ⟨r, c', h1, h2, h3, h4, h5⟩ := finish_three (n := n) (fuel := fuel) (x := 2) (ev := [1, 0]) hlabel
        (by simp [fibRefs, runBody, a1, b1, hk.read b2, b4.read b2, fib, runs]) b2 b3 (by
          simp only [top, List.cons_append, List.nil_append, List.mem_cons]
          rintro (h | h | h)
          · omega
          · omega
          · have := hrest 2 (List.mem_of_mem_take h); omega)
      have ht' : (top 0 ++ ([1] ++ rest1.take (n - 1 - 1))).take (n - 1) = [0, 1] ++ (rest1.take (n - 1 - 1)).take (n - 1 - 2) :=
        take_prefix (a := [0, 1]) (show [0, 1].length ≤ n - 1 by simp; omega)
      rw [ht'] at h3
      exact ⟨r, c', _, h1, h2, h3, h4, fun y hy => (a5 y (List.mem_of_mem_take (List.mem_of_mem_take hy))).imp_right (by omega), by omega⟩
    | x + 3 =>
      obtain ⟨r1, c1, rest1, a1, a2, a3, a4, a5, _⟩ := ih (x + 2) (by omega) fuel c xs (by omega) hr ho fun y hy => by have := hno y hy; omega
      obtain ⟨fuel, rfl⟩ : ∃ k, fuel = k + 1 := ⟨fuel - 1, by omega⟩
      have hmem : x + 1 ∈ top (x + 2) ++ rest1 := by simp [top]
      obtain ⟨r2, c2, b1, b2, b3, b4, b5⟩ := fetch_step a2 a3 hmem []
      have hl2 : (top (x + 2) ++ rest1).filter (fun y => y ≠ x + 1) = [x + 2] ++ (x :: rest1.filter (fun y => y ≠ x + 1)) := by
        simp [top]
      rw [hl2] at b3
      have hk : Refers c2 r1 (x + 2) := Refers.step b5 a4 ((b3.has _).2 (by simp))
      have hm : memo fibRefs (fuel + 1) c1 (x + 1) = some (.ok r2, c2, []) := by
        simp only [memo, (a3.has _).2 hmem, if_true, b1]
      obtain ⟨r, c', h1, h2, h3, h4, h5⟩ := finish_three (n := n) (fuel := fuel + 1) (x := x + 3) (ev := runs (x + 2)) hlabel
        (by simp [fibRefs, runBody, a1, hm, hk.read b2, b4.read b2, fib]) b2 b3 (by
          simp only [List.cons_append, List.nil_append, List.mem_cons, List.mem_filter]
          rintro (h | h | h | h)
          · omega
          · omega
          · omega
          · rcases a5 _ h.1 with h | h
            · have := hno _ h; omega
            · omega)
      have ht : ((x + 1) :: ([x + 2] ++ (x :: rest1.filter (fun y => y ≠ x + 1)))).take (n - 1) =
          [x + 1, x + 2] ++ (x :: rest1.filter (fun y => y ≠ x + 1)).take (n - 1 - 2) :=
        take_prefix (a := [x + 1, x + 2]) (show [x + 1, x + 2].length ≤ n - 1 by simp; omega)
      rw [ht] at h3
      have hruns : runs (x + 2) ++ [x + 3] = runs (x + 3) := by
        simp only [runs, List.cons_append]
        rw [List.range'_concat (n := x + 1)]
        simp; omega
      rw [hruns] at h1
      refine ⟨r, c', _, h1, h2, h3, h4, fun y hy => ?_, by omega⟩
      rcases List.mem_cons.1 (List.mem_of_mem_take hy) with rfl | hy
      · exact .inr (by omega)
      · exact (a5 y (List.mem_filter.1 hy).1).imp_right (by omega)

/-- **C130** (partial: for one call, from an empty cache): with three elements or more, the Fibonacci numbers computed through references are right and
no argument is evaluated twice, for every argument. -/
theorem C130_three_partial (hn : 3 ≤ n) (x : Nat) :
    ∃ c ev, history fibRefs (x + 1) [x] (empty n) = some ([.ok (fib x)], c, ev) ∧ ev.Nodup ∧ ev.length ≤ x + 1 ∧ x ∈ ev := by
  obtain ⟨r, c, rest, h1, h2, _, h4, _⟩ := three_calls hn x (x + 1) (empty n) [] (by omega) (right_empty (by omega)) ⟨_, rep_empty (by omega), rfl⟩ (by simp)
  refine ⟨c, runs x, by simp [history, h1, h4.read h2], ?_, ?_, ?_⟩
  · match x with
    | 0 => simp [runs]
    | 1 => simp [runs]
    | x + 2 => simp [runs, List.mem_range'_1, List.nodup_range']
  · match x with
    | 0 => simp [runs]
    | 1 => simp [runs]
    | x + 2 => simp [runs]
  · match x with
    | 0 => simp [runs]
    | 1 => simp [runs]
    | x + 2 => simp [runs, List.mem_range'_1]; omega

/-- C130: so the cache turns the exponential recursion into a linear one, with three elements. -/
theorem C130_linear (hn : 3 ≤ n) (x : Nat) :
    ∃ c ev, history fibRefs (x + 1) [x] (empty n) = some ([.ok (fib x)], c, ev) ∧ ev.length ≤ x + 1 ∧ ev.length ≤ calls x := by
  obtain ⟨c, ev, h, h1, h2, h3⟩ := C130_three_partial hn x
  have hc : ∀ y, y + 1 ≤ calls y + (if y = 1 then 1 else 0) ∧ y + 2 ≤ calls (y + 1) + (if y = 0 then 1 else 0) := by
    intro y
    induction y with
    | zero => decide
    | succ y ih =>
      have e1 : calls (y + 2) = 1 + calls (y + 1) + calls y := rfl
      refine ⟨by have := ih.2; simp only [show (y + 1 = 1) = (y = 0) by simp]; omega, ?_⟩
      have := ih.1; have := ih.2
      show _ ≤ calls (y + 2) + _
      split at ih <;> split at ih <;> simp <;> omega
  refine ⟨c, ev, h, h2, ?_⟩
  have := (hc x).1
  by_cases hx : x = 1
  · subst hx
    have h' : history fibRefs 2 [1] (empty n) = some ([.ok (fib 1)], c, ev) := h
    obtain ⟨r, c2, rest, g1, g2, _, g4, _⟩ := three_calls hn 1 2 (empty n) [] (by omega) (right_empty (by omega)) ⟨_, rep_empty (by omega), rfl⟩ (by simp)
    simp [history, g1, g4.read g2] at h'
    rw [← h'.2]; decide
  · rw [if_neg hx] at this; omega

example : ((history fibRefs 31 [30] (empty 3)).map fun q => (q.1, q.2.2.length)) = some ([.ok 832040], 31) ∧ calls 30 = 2692537 := by
  decide +kernel

/-- **C130, refuted** for three elements and more than one call: what the calls before leave behind can be unfortunate. After 5, the cache holds 5, 3, 4;
after 0 it holds 0, 5, 3. For 6, the call for 5 succeeds at once, and the call for 4 evicts what it refers to. -/
theorem C130_three_refuted : ((history fibRefs 7 [5, 0, 6] (empty 3)).map fun q => q.1) = some [.ok 5, .ok 0, .ub .dangling] := by decide +kernel

end Helper.LRU.Recursive
