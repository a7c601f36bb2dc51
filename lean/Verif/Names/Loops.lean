import Verif.TestC.Grid
/-!
# Names declared by the macros for iterators and vectors (test.hpp:585-607, C97)
-/
set_option linter.unusedSectionVars false
namespace Helper.Names

open Helper.Macro Helper.TestC

variable {α : Type} [DecidableEq α]

/-! ## Model -/

/-- Lines 580-594 `HELPER_TEST_GRID_TREE_SUBPAVING_ITERATOR`, where the expected number is an expression that is evaluated inside the
macro, with its variables: the field `i` of the state is `elements_count`. -/
def gridIn (exp xs : List α) (n : G → Nat) : Stmt G (α ⊕ Nat) :=
  .seq (.code fun s => (.val (), { s with i := 0 })) <|
  .seq (.loop (fun _ => xs.length) <|
    .seq (.ite (fun s => (.val (decide (s.i < n s)), s))
      (.seq (.print (.pure (.inr 0))) (.compare gridEq (gridAt exp) (gridAt xs)))
      (.code (.pure ())))
    (.code fun s => (.val (), { s with i := s.i + 1 }))) <|
  .seq (.print (.pure (.inr 0))) (.equal gridEq (fun s => (.val (.inr s.i), s)) (fun s => (.val (.inr (n s)), s)))

/-- Vectors of pointers in a vector. -/
structure Rows where
  rows : List (List (Option Nat))
  live : List Nat
  deleted : List Nat
deriving DecidableEq, Repr

/-- Lines 598-607 `HELPER_CLEAN_TEST_VECTOR(vs[e])`, from the index `i` on; `e` is evaluated inside the macro, so that it is a function of the
macro's variable `i`. `none` is undefined behaviour. The first argument bounds the number of iterations. -/
def cleanIn (e : Nat → Nat) : Nat → Nat → Rows → Option Rows
  | 0, _, r => some r
  | k + 1, i, r =>
    match r.rows[e i]? with
    | none => none
    | some row =>
      if i < row.length then
        match row[i]? with
        | some (some p) =>
          if p ∈ r.live then
            cleanIn e k (i + 1) ⟨r.rows.set (e i) (row.set i none), r.live.erase p, r.deleted ++ [p]⟩
          else none
        | _ => cleanIn e k (i + 1) r
      else some r

/-- The index is smaller than the length of some row as long as the loop goes on, so that this bound is not reached. -/
def Rows.bound (r : Rows) : Nat := (r.rows.map List.length).sum + 1

/-! ## Properties -/

/-- C97: with an expected number that does not depend on the macro's variables, the iterator macro is that of C94. -/
theorem C97_grid_partial (exp xs : List α) (n : Nat) : gridIn exp xs (fun _ => n) = grid exp xs n := rfl

theorem captured_loop (rtl : Bool) (exp xs : List α) (k : Nat) : ∀ (i f sk : Nat) (b : Bool),
    loopM (exec rtl (.seq (.ite (fun s => (.val (decide (s.i < s.i)), s))
      (.seq (.print (.pure (.inr 0))) (.compare gridEq (gridAt exp) (gridAt xs)))
      (.code (.pure ())))
      (.code fun s => (.val (), { s with i := s.i + 1 })))) k ⟨⟨i, b⟩, f, sk⟩ = (.val (), ⟨⟨i + k, b⟩, f, sk⟩) := by
  induction k with
  | zero => intro i f sk b; rfl
  | succ k ih =>
    intro i f sk b
    have := ih (i + 1) f sk b
    rw [show i + (k + 1) = i + 1 + k by omega, ← this]
    simp only [loopM]
    simp [exec, M.bind, M.lift, Exp.pure]

/-- C97: with an expected number called `elements_count`, the iterator macro compares nothing and passes, whatever the elements are. -/
theorem C97_grid_refuted (rtl : Bool) (exp xs : List α) (s : G) (f sk : Nat) :
    exec rtl (gridIn exp xs (·.i)) ⟨s, f, sk⟩ = (.val (), ⟨⟨xs.length, s.bad⟩, f, sk⟩) := by
  have hl := captured_loop rtl exp xs xs.length 0 f sk s.bad
  simp only [gridIn, exec, M.bind, M.lift] at hl ⊢
  rw [hl]
  cases rtl <;> simp [print, show_, M.bind, M.lift, Exp.pure, M.pure, equal, Exp.both, Exp.bind, gridEq]

/-- All elements are wrong, and there are three instead of the expected two. -/
example : exec false (gridIn [1, 2] [5, 6, 7] (·.i)) ⟨⟨0, false⟩, 0, 0⟩ = (.val (), ⟨⟨3, false⟩, 0, 0⟩) ∧
    exec false (gridIn [1, 2] [5, 6, 7] (fun _ => 2)) ⟨⟨0, false⟩, 0, 0⟩ = (.val (), ⟨⟨3, false⟩, 3, 0⟩) :=
  ⟨C97_grid_refuted false _ _ _ 0 0, by rw [C97_grid_partial]; exact C94_failures false _ _ _ _ _ _ rfl (by decide) (by decide)⟩

/-- The row `j` of the vectors. -/
def Rows.vec (r : Rows) (j : Nat) : Vec := ⟨r.rows[j]?.getD [], r.live, r.deleted⟩

/-- The row `j` replaced. -/
def Rows.put (r : Rows) (j : Nat) (v : Vec) : Rows := ⟨r.rows.set j v.ptrs, v.live, v.deleted⟩

theorem cleanIn_row (j k : Nat) : ∀ (i m : Nat) (r : Rows), j < r.rows.length → i + k = (r.rows[j]?.getD []).length →
    cleanIn (fun _ => j) (k + m + 1) i r = (cleanLoop k i (r.vec j)).map (r.put j) := by
  induction k with
  | zero =>
    intro i m r hj hi
    have hg : r.rows[j]? = some r.rows[j] := List.getElem?_eq_getElem hj
    rw [hg, Option.getD_some] at hi
    rw [show 0 + m + 1 = m + 1 by omega, cleanIn, hg]
    simp only [show ¬ i < (r.rows[j]).length by omega, if_false, cleanLoop, Option.map_some, Rows.put, Rows.vec, hg,
      Option.getD_some, List.set_getElem_self]
  | succ k ih =>
    intro i m r hj hi
    have hg : r.rows[j]? = some r.rows[j] := List.getElem?_eq_getElem hj
    rw [hg, Option.getD_some] at hi
    have hlt : i < (r.rows[j]).length := by omega
    have hgi : (r.rows[j])[i]? = some (r.rows[j])[i] := List.getElem?_eq_getElem hlt
    rw [show k + 1 + m + 1 = (k + m + 1) + 1 by omega, cleanIn, hg]
    simp only [hlt, if_true, hgi, cleanLoop, Rows.vec, Option.getD_some, hg]
    cases hx : (r.rows[j])[i] with
    | none =>
      simp only
      rw [ih (i + 1) m r hj (by rw [hg, Option.getD_some]; omega)]
      simp only [Rows.vec, hg, Option.getD_some]
    | some p =>
      simp only [Vec.delete]
      by_cases hp : p ∈ r.live
      · simp only [hp, if_true, Option.bind_some]
        rw [ih (i + 1) m ⟨r.rows.set j ((r.rows[j]).set i none), r.live.erase p, r.deleted ++ [p]⟩ (by simpa using hj)
          (by simp [hj]; omega)]
        simp only [Rows.vec, List.getElem?_set, hj, if_true, Option.getD_some]
        congr 1
        funext v
        simp [Rows.put]
      · simp [hp]

theorem length_le_sum : ∀ (l : List (List (Option Nat))) (j : Nat) (h : j < l.length), (l[j]).length ≤ (l.map List.length).sum
  | a :: l, 0, _ => by simp
  | a :: l, j + 1, h => by
    have := length_le_sum l j (by simpa using h)
    simp only [List.getElem_cons_succ, List.map_cons, List.sum_cons]; omega

/-- C97: for an argument `vs[j]` where `j` does not depend on the macro's variable, the macro cleans the row `j` as in C95 and keeps the others. -/
theorem C97_vector_partial (j : Nat) (r : Rows) (hj : j < r.rows.length) :
    cleanIn (fun _ => j) r.bound 0 r = (clean (r.vec j)).map (r.put j) := by
  have hg : r.rows[j]? = some r.rows[j] := List.getElem?_eq_getElem hj
  have hle := length_le_sum r.rows j hj
  have := cleanIn_row j (r.rows[j]).length 0 ((r.rows.map List.length).sum - (r.rows[j]).length) r hj (by rw [hg]; simp)
  rw [show (r.rows[j]).length + ((r.rows.map List.length).sum - (r.rows[j]).length) + 1 = r.bound by unfold Rows.bound; omega] at this
  rw [this, clean]
  simp only [Rows.vec, hg, Option.getD_some]

theorem cleanIn_diag (k : Nat) : ∀ (i : Nat) (r : Rows), i + k = r.rows.length → (∀ row ∈ r.rows, row.length = r.rows.length) →
    0 < k + i → ∀ m, cleanIn id (k + m + 1) i r = none := by
  induction k with
  | zero =>
    intro i r hi _ _ m
    have : r.rows[i]? = none := List.getElem?_eq_none (by omega)
    rw [show 0 + m + 1 = m + 1 by omega, cleanIn, id, this]
  | succ k ih =>
    intro i r hi hr _ m
    have hlt : i < r.rows.length := by omega
    have hg : r.rows[i]? = some r.rows[i] := List.getElem?_eq_getElem hlt
    have hl := hr _ (List.getElem_mem hlt)
    have hlt' : i < (r.rows[i]).length := by omega
    have hgi : (r.rows[i])[i]? = some (r.rows[i])[i] := List.getElem?_eq_getElem hlt'
    rw [show k + 1 + m + 1 = (k + m + 1) + 1 by omega, cleanIn, id, hg]
    simp only [hlt', if_true, hgi]
    cases hx : (r.rows[i])[i] with
    | none => exact ih (i + 1) r (by omega) hr (by omega) m
    | some p =>
      by_cases hp : p ∈ r.live
      · simp only [hp, if_true]
        refine ih (i + 1) _ (by simp; omega) ?_ (by omega) m
        intro row hrow
        rw [List.length_set]
        rcases List.mem_or_eq_of_mem_set hrow with h | h
        · exact hr _ h
        · rw [h, List.length_set, hl]
      · simp [hp]

/-- C97: `HELPER_CLEAN_TEST_VECTOR(vs[i])` in a loop of the caller over `i` runs along the diagonal and, if there are as many rows as each
has elements, beyond the last row. -/
theorem C97_vector_refuted (r : Rows) (hr : ∀ row ∈ r.rows, row.length = r.rows.length) (h0 : r.rows ≠ []) :
    cleanIn id r.bound 0 r = none := by
  obtain ⟨a, t, e⟩ := List.exists_cons_of_ne_nil h0
  have hlt : 0 < r.rows.length := by rw [e]; simp
  have hle := length_le_sum r.rows 0 hlt
  have hl := hr _ (List.getElem_mem hlt)
  have := cleanIn_diag r.rows.length 0 r (by omega) hr (by omega) ((r.rows.map List.length).sum - r.rows.length)
  rwa [show r.rows.length + ((r.rows.map List.length).sum - r.rows.length) + 1 = r.bound by unfold Rows.bound; omega] at this

/-- With shorter rows it may be defined, but deletes other objects: the caller's `i` is 0, and 1 and 4 are deleted instead of 1 and 2. -/
example : cleanIn id 100 0 ⟨[[some 1, some 2], [some 3, some 4], []], [1, 2, 3, 4], []⟩ =
      some ⟨[[none, some 2], [some 3, none], []], [2, 3], [1, 4]⟩ ∧
    cleanIn (fun _ => 0) 100 0 ⟨[[some 1, some 2], [some 3, some 4], []], [1, 2, 3, 4], []⟩ =
      some ⟨[[none, none], [some 3, some 4], []], [3, 4], [1, 2]⟩ := by decide +kernel

end Helper.Names
