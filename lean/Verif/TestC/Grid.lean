import Verif.TestC.Model
/-!
# The macros for iterators and vectors of test.hpp:585-607 (C94, C95)
-/
set_option linter.unusedSectionVars false
namespace Helper.TestC

open Helper.Macro

variable {α : Type} [DecidableEq α]

/-! ## Model -/

/-- The variables of `HELPER_TEST_GRID_TREE_SUBPAVING_ITERATOR`: `elements_count`, which is also the position of `it`; and whether an
element that does not exist was read. -/
structure G where
  i : Nat
  bad : Bool
deriving DecidableEq, Repr

/-- `*expected_result[elements_count]` or `*it`. -/
def gridAt (l : List α) : Exp G (α ⊕ Nat) := fun s =>
  match l[s.i]? with
  | some a => (.val (.inl a), s)
  | none => (.val (.inr 0), { s with bad := true })

def gridEq (a b : α ⊕ Nat) : Exp G Bool := .pure (decide (a = b))

/-- Lines 580-594 `HELPER_TEST_GRID_TREE_SUBPAVING_ITERATOR(expected_result,theGridTreeSubpaving,expected_number_elements)`:
`xs` are the elements iterated over, `exp` those that `expected_result` points to, `n` the expected number. The type
`GridTreeSubpaving` is not part of the library. The comments printed are constants. -/
def grid (exp xs : List α) (n : Nat) : Stmt G (α ⊕ Nat) :=
  .seq (.code fun s => (.val (), { s with i := 0 })) <|
  .seq (.loop (fun _ => xs.length) <|
    .seq (.ite (fun s => (.val (decide (s.i < n)), s))
      (.seq (.print (.pure (.inr 0))) (.compare gridEq (gridAt exp) (gridAt xs)))
      (.code (.pure ())))
    (.code fun s => (.val (), { s with i := s.i + 1 }))) <|
  .seq (.print (.pure (.inr 0))) (.equal gridEq (fun s => (.val (.inr s.i), s)) (.pure (.inr n)))

/-- A vector of pointers to objects on the heap; `live` are the objects that exist, `deleted` those that were deleted, in order. -/
structure Vec where
  ptrs : List (Option Nat)
  live : List Nat
  deleted : List Nat
deriving DecidableEq, Repr

/-- `delete p`; `none` is undefined behaviour: the object does not exist. -/
def Vec.delete (v : Vec) (p : Nat) : Option Vec :=
  if p ∈ v.live then some { v with live := v.live.erase p, deleted := v.deleted ++ [p] } else none

/-- Lines 598-607 `HELPER_CLEAN_TEST_VECTOR(vector)`: the loop from index `i`, with `k` iterations left. -/
def cleanLoop : Nat → Nat → Vec → Option Vec
  | 0, _, v => some v
  | k + 1, i, v =>
    match v.ptrs[i]? with
    | some (some p) => (v.delete p).bind fun v => cleanLoop k (i + 1) { v with ptrs := v.ptrs.set i none }
    | _ => cleanLoop k (i + 1) v

def clean (v : Vec) : Option Vec := cleanLoop v.ptrs.length 0 v

/-! ## C94 -/

/-- How many of the first `n` expected elements differ from the element at the same position. -/
def mismatches (exp xs : List α) (n : Nat) : Nat := ((exp.take n).zip xs).countP fun p => decide (p.1 ≠ p.2)

theorem compare_exec (rtl : Bool) (a b : α) (exp xs : List α) (s : G) (f k : Nat) (ha : exp[s.i]? = some a) (hb : xs[s.i]? = some b)
    (hf : f + 1 < 2 ^ 31) :
    exec rtl (.compare gridEq (gridAt exp) (gridAt xs)) ⟨s, f, k⟩ = (.val (), ⟨s, f + (if a = b then 0 else 1), k⟩) := by
  have h1 : gridAt exp s = (.val (.inl a), s) := by simp [gridAt, ha]
  have h2 : gridAt xs s = (.val (.inl b), s) := by simp [gridAt, hb]
  by_cases h : a = b
  · cases rtl <;> simp [exec, compare, show_, M.bind, M.lift, h1, h2, M.pure, Exp.both, Exp.bind, Exp.pure, gridEq, h]
  · cases rtl <;> simp [exec, compare, show_, M.bind, M.lift, h1, h2, M.pure, Exp.both, Exp.bind, Exp.pure, gridEq, h, incr, hf]

theorem mismatches_succ (exp xs : List α) (n i : Nat) (a b : α) (ha : exp[i]? = some a) (hb : xs[i]? = some b) (hi : i < n) :
    mismatches (exp.drop i) (xs.drop i) (n - i) =
      (if a = b then 0 else 1) + mismatches (exp.drop (i + 1)) (xs.drop (i + 1)) (n - (i + 1)) := by
  have e1 : exp.drop i = a :: exp.drop (i + 1) := by
    obtain ⟨h, rfl⟩ := List.getElem?_eq_some_iff.1 ha
    exact List.drop_eq_getElem_cons h
  have e2 : xs.drop i = b :: xs.drop (i + 1) := by
    obtain ⟨h, rfl⟩ := List.getElem?_eq_some_iff.1 hb
    exact List.drop_eq_getElem_cons h
  have e3 : n - i = (n - (i + 1)) + 1 := by omega
  rw [mismatches, e1, e2, e3, List.take_succ_cons, List.zip_cons_cons, List.countP_cons, mismatches]
  by_cases h : a = b <;> simp [h]; omega

theorem mismatches_le (exp xs : List α) (n : Nat) : mismatches exp xs n ≤ xs.length := by
  refine Nat.le_trans List.countP_le_length ?_
  rw [List.length_zip]; omega

theorem grid_loop (rtl : Bool) (exp xs : List α) (n k : Nat) : ∀ (i f sk : Nat), i + k = xs.length →
    min n xs.length ≤ exp.length → f + xs.length < 2 ^ 31 + i →
    loopM (exec rtl (.seq (.ite (fun s => (.val (decide (s.i < n)), s))
      (.seq (.print (.pure (.inr 0))) (.compare gridEq (gridAt exp) (gridAt xs)))
      (.code (.pure ())))
      (.code fun s => (.val (), { s with i := s.i + 1 })))) k ⟨⟨i, false⟩, f, sk⟩ =
    (.val (), ⟨⟨xs.length, false⟩, f + mismatches (exp.drop i) (xs.drop i) (n - i), sk⟩) := by
  induction k with
  | zero =>
    intro i f sk hi _ _
    have : i = xs.length := by omega
    subst this
    simp [loopM, M.pure, mismatches]
  | succ k ih =>
    intro i f sk hi he hf
    by_cases hn : i < n
    · have hx : i < xs.length := by omega
      have hx' : i < exp.length := by omega
      have hb : xs[i]? = some xs[i] := List.getElem?_eq_getElem hx
      have ha : exp[i]? = some exp[i] := List.getElem?_eq_getElem hx'
      have hc := compare_exec rtl exp[i] xs[i] exp xs ⟨i, false⟩ f sk ha hb (by omega)
      have hstep := ih (i + 1) (f + (if exp[i] = xs[i] then 0 else 1)) sk (by omega) he (by split <;> omega)
      rw [mismatches_succ exp xs n i _ _ ha hb hn, ← Nat.add_assoc, ← hstep]
      simp only [loopM]
      simp [exec, M.bind, M.lift, print, show_, Exp.pure, M.pure, hn] at hc ⊢
      rw [hc]
    · have hstep := ih (i + 1) f sk (by omega) he (by omega)
      have e : n - i = n - (i + 1) := by omega
      have e0 : mismatches (exp.drop i) (xs.drop i) (n - i) = mismatches (exp.drop (i + 1)) (xs.drop (i + 1)) (n - (i + 1)) := by
        have : n - (i + 1) = 0 := by omega
        rw [e, this]; simp [mismatches]
      rw [e0, ← hstep]
      simp only [loopM]
      simp [exec, M.bind, M.lift, Exp.pure, hn]

/-- C94: the macro counts one failure for each of the first `n` elements that differs from the expected one, and one if the number of
elements is not the expected one. It reads only elements that exist. -/
theorem C94_failures (rtl : Bool) (exp xs : List α) (n f sk : Nat) (s : G) (hs : s.bad = false) (he : min n xs.length ≤ exp.length)
    (hf : f + xs.length + 1 < 2 ^ 31) :
    exec rtl (grid exp xs n) ⟨s, f, sk⟩ =
      (.val (), ⟨⟨xs.length, false⟩, f + mismatches exp xs n + (if xs.length = n then 0 else 1), sk⟩) := by
  have hl := grid_loop rtl exp xs n xs.length 0 f sk (by omega) he (by omega)
  simp only [List.drop_zero, Nat.sub_zero] at hl
  have hm := mismatches_le exp xs n
  simp only [grid, exec, M.bind, M.lift, hs] at hl ⊢
  rw [hl]
  by_cases h : xs.length = n
  · cases rtl <;> simp [print, show_, M.bind, M.lift, Exp.pure, M.pure, equal, Exp.both, Exp.bind, gridEq, h]
  · have : f + mismatches exp xs n + 1 < 2 ^ 31 := by omega
    cases rtl <;> simp [print, show_, M.bind, M.lift, Exp.pure, M.pure, equal, Exp.both, Exp.bind, gridEq, h, incr, this]

/-- C94: it counts no failure iff the elements are the first `n` expected ones. -/
theorem C94_passes_iff (exp xs : List α) (n : Nat) (he : n ≤ exp.length) :
    mismatches exp xs n + (if xs.length = n then 0 else 1) = 0 ↔ xs = exp.take n := by
  constructor
  · intro h
    have hn : xs.length = n := by
      by_cases e : xs.length = n
      · exact e
      · rw [if_neg e] at h; omega
    rw [if_pos hn, Nat.add_zero, mismatches, List.countP_eq_zero] at h
    apply List.ext_getElem
    · rw [List.length_take]; omega
    · intro i h1 h2
      have : ((exp.take n)[i], xs[i]) ∈ (exp.take n).zip xs := by
        have hz : i < ((exp.take n).zip xs).length := by rw [List.length_zip]; omega
        rw [← List.getElem_zip (h := hz)]
        exact List.getElem_mem hz
      have := h _ this
      simp only [decide_eq_true_eq, Decidable.not_not] at this
      exact this.symm
  · rintro rfl
    have : ((exp.take n).length = n) := by rw [List.length_take]; omega
    rw [if_pos this, Nat.add_zero, mismatches, List.countP_eq_zero]
    intro p hp
    simp only [decide_eq_true_eq, Decidable.not_not]
    obtain ⟨i, hi, e⟩ := List.getElem_of_mem hp
    rw [List.getElem_zip] at e
    rw [← e]

/-- C94 is false if fewer elements are expected than `n` says: the macro then reads beyond the vector. -/
theorem C94_refuted (rtl : Bool) : (exec rtl (grid [1] [1, 2] 2) ⟨⟨0, false⟩, 0, 0⟩).2.u.bad = true := by
  cases rtl <;> decide +kernel

example (rtl : Bool) : exec rtl (grid [1, 2, 3] [1, 5] 3) ⟨⟨0, false⟩, 0, 0⟩ = (.val (), ⟨⟨2, false⟩, 2, 0⟩) :=
  C94_failures rtl _ _ _ _ _ _ rfl (by decide) (by decide)

/-! ## C95 -/

/-- The objects that the vector points to. -/
def Vec.pointees (v : Vec) : List Nat := v.ptrs.filterMap id

theorem cleanLoop_spec (k : Nat) : ∀ (i : Nat) (v : Vec), i + k = v.ptrs.length → v.live.Nodup →
    (((v.ptrs.drop i).filterMap id).Nodup ∧ (∀ p ∈ (v.ptrs.drop i).filterMap id, p ∈ v.live) ↔ (cleanLoop k i v).isSome) ∧
    ∀ w, cleanLoop k i v = some w → w.ptrs = v.ptrs.take i ++ List.replicate k none ∧
      w.deleted = v.deleted ++ (v.ptrs.drop i).filterMap id ∧
      ∀ p, p ∈ w.live ↔ p ∈ v.live ∧ p ∉ (v.ptrs.drop i).filterMap id := by
  induction k with
  | zero =>
    intro i v hi _
    have e : v.ptrs.drop i = [] := List.drop_eq_nil_of_le (by omega)
    refine ⟨by simp [e, cleanLoop], fun w hw => ?_⟩
    simp only [cleanLoop, Option.some.injEq] at hw
    subst hw
    simp [e, List.take_of_length_le (show v.ptrs.length ≤ i by omega)]
  | succ k ih =>
    intro i v hi hn
    have hlt : i < v.ptrs.length := by omega
    have hd : v.ptrs.drop i = v.ptrs[i] :: v.ptrs.drop (i + 1) := List.drop_eq_getElem_cons hlt
    have hg : v.ptrs[i]? = some v.ptrs[i] := List.getElem?_eq_getElem hlt
    have ht : v.ptrs.take (i + 1) = v.ptrs.take i ++ [v.ptrs[i]] := by rw [List.take_add_one, hg]; rfl
    rw [cleanLoop, hg, hd]
    generalize hx : v.ptrs[i] = x at *
    cases x with
    | none =>
      obtain ⟨h1, h2⟩ := ih (i + 1) v (by omega) hn
      refine ⟨by simpa using h1, fun w hw => ?_⟩
      obtain ⟨a, b, c⟩ := h2 w hw
      refine ⟨?_, by simpa using b, by simpa using c⟩
      rw [a, ht, List.append_assoc]
      rfl
    | some p =>
      simp only [List.filterMap_cons, id_eq, List.nodup_cons]
      by_cases hp : p ∈ v.live
      · have hdel : v.delete p = some { v with live := v.live.erase p, deleted := v.deleted ++ [p] } := by simp [Vec.delete, hp]
        simp only [hdel, Option.bind_some]
        obtain ⟨h1, h2⟩ := ih (i + 1) ⟨v.ptrs.set i none, v.live.erase p, v.deleted ++ [p]⟩ (by simp; omega) (hn.erase p)
        have e : (v.ptrs.set i none).drop (i + 1) = v.ptrs.drop (i + 1) := by
          rw [List.drop_set]; simp
        simp only [e] at h1 h2
        have hm : ∀ q, q ∈ v.live.erase p ↔ q ≠ p ∧ q ∈ v.live := fun q => hn.mem_erase_iff
        constructor
        · rw [← h1]
          constructor
          · rintro ⟨⟨a, b⟩, c⟩
            refine ⟨b, fun q hq => (hm q).2 ⟨fun h => a (h ▸ hq), c q (List.mem_cons_of_mem _ hq)⟩⟩
          · rintro ⟨b, c⟩
            refine ⟨⟨fun h => ((hm p).1 (c p h)).1 rfl, b⟩, fun q hq => ?_⟩
            rcases List.mem_cons.1 hq with rfl | hq
            · exact hp
            · exact ((hm q).1 (c q hq)).2
        · intro w hw
          obtain ⟨a, b, c⟩ := h2 w hw
          refine ⟨?_, ?_, fun q => ?_⟩
          · rw [a, List.take_set, ht]
            have hl : (v.ptrs.take i).length = i := by rw [List.length_take]; omega
            rw [List.set_append]
            simp [hl]
            rfl
          · rw [b]; simp
          · rw [c, hm, List.mem_cons, not_or]
            constructor
            · rintro ⟨⟨h, h'⟩, h''⟩; exact ⟨h', h, h''⟩
            · rintro ⟨h', h, h''⟩; exact ⟨⟨h, h'⟩, h''⟩
      · have hdel : v.delete p = none := by simp [Vec.delete, hp]
        simp only [hdel, Option.bind_none]
        refine ⟨⟨fun h => absurd (h.2 p List.mem_cons_self) hp, fun h => by cases h⟩, fun w hw => by cases hw⟩

/-- C95: `HELPER_CLEAN_TEST_VECTOR` is defined iff the non-null pointers are different and point to existing objects. -/
theorem C95_defined_iff (v : Vec) (hn : v.live.Nodup) :
    (clean v).isSome ↔ v.pointees.Nodup ∧ ∀ p ∈ v.pointees, p ∈ v.live := by
  have := (cleanLoop_spec v.ptrs.length 0 v (by omega) hn).1
  rw [List.drop_zero] at this
  exact this.symm

/-- C95: it then deletes each of these objects once, in order, keeps all others, and leaves null pointers. -/
theorem C95_result_partial (v w : Vec) (hn : v.live.Nodup) (h : clean v = some w) :
    w.ptrs = List.replicate v.ptrs.length none ∧ w.deleted = v.deleted ++ v.pointees ∧
    ∀ p, p ∈ w.live ↔ p ∈ v.live ∧ p ∉ v.pointees := by
  have := (cleanLoop_spec v.ptrs.length 0 v (by omega) hn).2 w h
  simp only [List.drop_zero, List.take_zero, List.nil_append] at this
  exact this

/-- C95: cleaning again does nothing. -/
theorem C95_again_partial (v w : Vec) (hn : v.live.Nodup) (h : clean v = some w) : clean w = some w := by
  obtain ⟨h1, _, _⟩ := C95_result_partial v w hn h
  have key : ∀ k i (u : Vec), (∀ x ∈ u.ptrs, x = none) → cleanLoop k i u = some u := by
    intro k
    induction k with
    | zero => intro i u _; rfl
    | succ k ih =>
      intro i u hu
      rw [cleanLoop]
      cases hg : u.ptrs[i]? with
      | none => exact ih _ _ hu
      | some x =>
        have := hu x (List.mem_of_getElem? hg)
        subst this
        exact ih _ _ hu
  exact key _ _ _ (by rw [h1]; intro x hx; exact List.eq_of_mem_replicate hx)

/-- C95 is false for a vector with the same pointer at two places: the object is deleted twice. -/
theorem C95_refuted : clean ⟨[some 1, none, some 1], [1, 2], []⟩ = none := by decide +kernel

example : clean ⟨[some 1, none, some 3], [1, 2, 3], []⟩ = some ⟨[none, none, none], [2], [1, 3]⟩ := by decide +kernel

end Helper.TestC
