import Verif.SetC.Lemmas
set_option linter.unusedSectionVars false
/-!
# Properties C35–C38 and C42: sets

`OSet.Mem t s`: an element equivalent to `t` is in the list `s`. `OSet.Sorted s`: strictly increasing,
the invariant of every `std::set` (C38 proves that the operations keep it). A sorted list is determined
by its members (`OSet.eq_of_mem_iff`), so statements of the form `Sorted r ∧ ∀ x, x ∈ r ↔ …` fix `r`.
-/
namespace Helper.SetC
open OSet

variable {α : Type u} [Cmp α] [StrictWeak α]

/-- `f` terminates with result `r`. -/
def Terminates (f : Nat → Option (List α)) (r : List α) : Prop := ∃ n, ∀ fuel, n ≤ fuel → f fuel = some r

/-! ## C35 -/

theorem subsetM_iff {s l : List α} : subsetM s l = true ↔ ∀ x ∈ l, Mem x s := by
  induction l with
  | nil => simp [subsetM]
  | cons x l ih =>
    rw [subsetM]
    cases hc : contains s x
    · have := contains_false.1 hc
      simp [this]
    · have := contains_iff.1 hc
      simp [this, ih]

theorem disjointM_iff {s l : List α} : disjointM s l = true ↔ ∀ x ∈ l, ¬ Mem x s := by
  induction l with
  | nil => simp [disjointM]
  | cons x l ih =>
    rw [disjointM]
    cases hc : contains s x
    · have := contains_false.1 hc
      simp [this, ih]
    · have := contains_iff.1 hc
      simp [this]

theorem common_symm {s l : List α} : (∀ x ∈ l, ¬ Mem x s) ↔ ∀ x ∈ s, ¬ Mem x l :=
  ⟨fun h x hx ⟨y, hy, hk⟩ => h y hy ⟨x, hx, Cmp.equiv_symm hk⟩,
   fun h x hx ⟨y, hy, hk⟩ => h y hy ⟨x, hx, Cmp.equiv_symm hk⟩⟩

/-- C35: `contains`. -/
theorem C35_contains (s : List α) (t : α) : contains s t = true ↔ ∃ x ∈ s, Cmp.equiv x t = true := contains_iff

/-- C35: the free `subset(s1,s2)` tells whether `s1` is a subset of `s2`, the member `s1.subset(s2)`
whether `s2` is a subset of `s1`. -/
theorem C35_subset (s1 s2 : List α) :
    (subset s1 s2 = true ↔ ∀ x ∈ s1, ∃ y ∈ s2, Cmp.equiv y x = true) ∧
    (subsetM s1 s2 = true ↔ ∀ x ∈ s2, ∃ y ∈ s1, Cmp.equiv y x = true) := by
  refine ⟨?_, subsetM_iff⟩
  have : ∀ s1, subset s1 s2 = subsetM s2 s1 := by
    intro s1
    induction s1 with
    | nil => rfl
    | cons x l ih => rw [subset, subsetM, ih]
  rw [this]; exact subsetM_iff

/-- C35: the four forms of `disjoint`. -/
theorem C35_disjoint (s1 s2 : List α) :
    (disjoint s1 s2 = true ↔ ¬ ∃ x ∈ s1, ∃ y ∈ s2, Cmp.equiv x y = true) ∧
    (disjointList s1 s2 = true ↔ ¬ ∃ x ∈ s1, ∃ y ∈ s2, Cmp.equiv x y = true) ∧
    (disjointM s1 s2 = true ↔ ¬ ∃ x ∈ s1, ∃ y ∈ s2, Cmp.equiv x y = true) := by
  have h1 : ∀ s1, disjoint s1 s2 = disjointM s2 s1 := by
    intro s1
    induction s1 with
    | nil => rfl
    | cons x l ih => rw [disjoint, disjointM, ih]
  have h2 : ∀ s2, disjointList s1 s2 = disjointM s1 s2 := by
    intro s2
    induction s2 with
    | nil => rfl
    | cons x l ih => rw [disjointList, disjointM, ih]
  have key : (∀ x ∈ s2, ¬ Mem x s1) ↔ ¬ ∃ x ∈ s1, ∃ y ∈ s2, Cmp.equiv x y = true :=
    ⟨fun h ⟨x, hx, y, hy, hk⟩ => h y hy ⟨x, hx, hk⟩, fun h y hy ⟨x, hx, hk⟩ => h ⟨x, hx, y, hy, hk⟩⟩
  rw [h1, h2, disjointM_iff, disjointM_iff, ← key, common_symm]
  exact ⟨Iff.rfl, Iff.rfl, Iff.rfl⟩

example : subset [1, 3] [1, 2, 3] = true ∧ subsetM [1, 2, 3] [1, 3] = true ∧ subsetM [1, 3] [1, 2, 3] = false ∧
    disjoint [1, 3] [2, 4] = true ∧ disjoint [1, 3] [3] = false := by decide
/-- Equivalent elements need not be equal. -/
example : contains [Tens.mk 31] (Tens.mk 38) = true := by decide

/-! ## C36 -/

/-- C36: `adjoin` and `join` give the union; elements already present are kept, also when the set is
adjoined to itself. -/
theorem C36_adjoin {s : List α} (hs : Sorted s) (a : Arg α) :
    ∃ r, Terminates (fun fuel => adjoin fuel s a) r ∧ Sorted r ∧
      (∀ t, Mem t r ↔ Mem t s ∨ Mem t (a.now s)) ∧
      (Sorted (a.now s) → ∀ x, x ∈ r ↔ x ∈ s ∨ (x ∈ a.now s ∧ ¬ Mem x s)) := by
  cases a with
  | self =>
    refine ⟨s, ⟨s.length + 1, fun fuel hf => adjoinLoop_self fuel 0 s hs (by omega)⟩, hs, fun t => ?_, fun _ x => ?_⟩
    · simp [Arg.now]
    · simp only [Arg.now]
      exact ⟨Or.inl, fun h => h.elim id (fun h => h.1)⟩
  | other s2 =>
    obtain ⟨h1, h2⟩ := foldl_insert (l := s2) hs
    have hfirst : ∀ t, Mem t s2 → ∃ x, Cmp.equiv x t = true ∧ ∃ a b, s2 = a ++ x :: b ∧ ∀ y ∈ a, Cmp.equiv y x = false := by
      intro t ht
      obtain ⟨x, a, b, h, hk, ha⟩ := first_of_mem ht
      exact ⟨x, hk, a, b, h, ha⟩
    refine ⟨_, ⟨s2.length + 1, fun fuel hf => adjoinLoop_other s2 fuel 0 s (by omega)⟩, h1, fun t => ?_, fun hs2 x => ?_⟩
    · simp only [Arg.now, List.drop_zero]
      constructor
      · rintro ⟨x, hx, hk⟩
        rcases (h2 x).1 hx with hx | ⟨_, a, b, he, _⟩
        · exact Or.inl ⟨x, hx, hk⟩
        · exact Or.inr ⟨x, by rw [he]; simp, hk⟩
      · rintro (⟨x, hx, hk⟩ | h)
        · exact ⟨x, (h2 x).2 (Or.inl hx), hk⟩
        · obtain ⟨x, hk, hab⟩ := hfirst t h
          by_cases hm : Mem x s
          · obtain ⟨y, hy, hyk⟩ := hm
            exact ⟨y, (h2 y).2 (Or.inl hy), Cmp.equiv_trans hyk hk⟩
          · exact ⟨x, (h2 x).2 (Or.inr ⟨hm, hab⟩), hk⟩
    · simp only [Arg.now, List.drop_zero] at hs2 ⊢
      rw [h2]
      constructor
      · rintro (h | ⟨h, a, b, he, _⟩)
        · exact Or.inl h
        · exact Or.inr ⟨by rw [he]; simp, h⟩
      · rintro (h | ⟨hx, h⟩)
        · exact Or.inl h
        · refine Or.inr ⟨h, mem_ofList.1 ?_⟩
          rw [ofList_of_sorted hs2]; exact hx

/-- C36: `join`. -/
theorem C36_join {s1 s2 : List α} (h1 : Sorted s1) (h2 : Sorted s2) :
    ∃ r, Terminates (fun fuel => join fuel s1 s2) r ∧ Sorted r ∧ ∀ x, x ∈ r ↔ x ∈ s1 ∨ (x ∈ s2 ∧ ¬ Mem x s1) := by
  obtain ⟨r, ht, hs, _, hm⟩ := C36_adjoin h1 (.other s2)
  exact ⟨r, ht, hs, hm h2⟩

theorem sweep_true {s : List α} (hs : Sorted s) (p : List α → α → Bool) (hp : ∀ s x, p s x = true ↔ Mem x s) (a : Arg α) :
    ∃ r, Terminates (fun fuel => sweepLoop p a fuel 0 s) r ∧ Sorted r ∧ ∀ x, x ∈ r ↔ x ∈ s ∧ ¬ Mem x (a.now s) := by
  cases a with
  | self =>
    refine ⟨[], ⟨s.length + 1, fun fuel hf => ?_⟩, sorted_nil, fun x => ?_⟩
    · exact sweepLoop_self_true p (fun s x hx => (hp s x).2 (mem_of_mem hx)) fuel 0 s (by omega)
    · simp only [Arg.now, List.not_mem_nil, false_iff]
      exact fun h => h.2 (mem_of_mem h.1)
  | other s2 =>
    refine ⟨s.filter (fun x => !p s2 x), ⟨s.length + 1, fun fuel hf => ?_⟩, sorted_sublist hs List.filter_sublist, fun x => ?_⟩
    · simpa using sweepLoop_other p s2 fuel 0 s (by omega)
    · rw [List.mem_filter, Arg.now, ← hp]
      simp

theorem sweep_false {s : List α} (hs : Sorted s) (p : List α → α → Bool) (hp : ∀ s x, p s x = true ↔ ¬ Mem x s) (a : Arg α) :
    ∃ r, Terminates (fun fuel => sweepLoop p a fuel 0 s) r ∧ Sorted r ∧ ∀ x, x ∈ r ↔ x ∈ s ∧ Mem x (a.now s) := by
  cases a with
  | self =>
    refine ⟨s, ⟨s.length + 1, fun fuel hf => ?_⟩, hs, fun x => ?_⟩
    · refine sweepLoop_self_false p (fun s x hx => ?_) fuel 0 s (by omega)
      rw [Bool.eq_false_iff]
      intro h
      exact (hp s x).1 h (mem_of_mem hx)
    · simp only [Arg.now]
      exact ⟨fun h => ⟨h, mem_of_mem h⟩, fun h => h.1⟩
  | other s2 =>
    refine ⟨s.filter (fun x => !p s2 x), ⟨s.length + 1, fun fuel hf => ?_⟩, sorted_sublist hs List.filter_sublist, fun x => ?_⟩
    · simpa using sweepLoop_other p s2 fuel 0 s (by omega)
    · rw [List.mem_filter, Arg.now]
      have := hp s2 x
      cases hpx : p s2 x
      · rw [hpx] at this
        simp only [Bool.false_eq_true, false_iff, Classical.not_not] at this
        simp [this]
      · rw [hpx] at this
        simp only [true_iff] at this
        simp [this]

/-- C36: `remove(set)`, member and free: the elements that are not in the argument remain. -/
theorem C36_remove {s : List α} (hs : Sorted s) (a : Arg α) :
    (∃ r, Terminates (fun fuel => remove fuel s a) r ∧ Sorted r ∧ ∀ x, x ∈ r ↔ x ∈ s ∧ ¬ Mem x (a.now s)) ∧
    (∃ r, Terminates (fun fuel => removeF fuel s a) r ∧ Sorted r ∧ ∀ x, x ∈ r ↔ x ∈ s ∧ ¬ Mem x (a.now s)) :=
  ⟨sweep_true hs _ (fun _ _ => find_isSome) a, sweep_true hs _ (fun _ _ => contains_iff) a⟩

/-- C36: `remove(t)` removes just the element equivalent to `t`; `remove(vector)` those of the vector. -/
theorem C36_removeElem {s : List α} (hs : Sorted s) (t : α) :
    Sorted (removeElem s t) ∧ ∀ x, x ∈ removeElem s t ↔ x ∈ s ∧ Cmp.equiv x t = false := by
  rw [removeElem_eq hs]
  exact ⟨sorted_erase hs, fun x => mem_erase⟩

theorem C36_removeList {s : List α} (hs : Sorted s) (l : List α) :
    Sorted (removeList s l) ∧ ∀ x, x ∈ removeList s l ↔ x ∈ s ∧ ¬ Mem x l :=
  ⟨sorted_removeList hs, fun x => mem_removeList⟩

/-- C36: the free `restrict` keeps the common elements. -/
theorem C36_restrict {s : List α} (hs : Sorted s) (a : Arg α) :
    ∃ r, Terminates (fun fuel => restrictF fuel s a) r ∧ Sorted r ∧ ∀ x, x ∈ r ↔ x ∈ s ∧ Mem x (a.now s) :=
  sweep_false hs _ (fun _ _ => by simp [← contains_iff]) a

/-- C36: `intersection(set,set)`: the elements of the first that are in the second. -/
theorem C36_intersection {s1 : List α} (h1 : Sorted s1) (s2 : List α) :
    ∃ r, Terminates (fun fuel => intersection fuel s1 s2) r ∧ Sorted r ∧ ∀ x, x ∈ r ↔ x ∈ s1 ∧ Mem x s2 := by
  obtain ⟨r, ht, hs, hm⟩ := C36_restrict h1 (.other s2)
  refine ⟨r, ?_, hs, hm⟩
  simpa only [intersection, ofList_of_sorted h1] using ht

/-- C36: `intersection(set,vector)`: of equivalent elements in the vector the first is taken. -/
theorem C36_intersectionList (s1 l2 : List α) :
    Sorted (intersectionList s1 l2) ∧ (∀ t, Mem t (intersectionList s1 l2) ↔ Mem t s1 ∧ Mem t l2) ∧
    ∀ x, x ∈ intersectionList s1 l2 ↔ Mem x s1 ∧ ∃ a b, l2 = a ++ x :: b ∧ ∀ y ∈ a, Cmp.equiv y x = false := by
  have he : intersectionList s1 l2 = OSet.ofList (l2.filter (contains s1)) := intersectionLoop_eq
  have hfilter : ∀ (l2 : List α) x, (∃ a b, l2.filter (contains s1) = a ++ x :: b ∧ ∀ y ∈ a, Cmp.equiv y x = false) ↔
      Mem x s1 ∧ ∃ a b, l2 = a ++ x :: b ∧ ∀ y ∈ a, Cmp.equiv y x = false := by
    intro l2 x
    induction l2 with
    | nil =>
      constructor
      · rintro ⟨a, b, h, _⟩; cases a <;> cases h
      · rintro ⟨_, a, b, h, _⟩; cases a <;> cases h
    | cons z l ih =>
      rw [List.filter_cons]
      have hcons : ∀ l : List α, (∃ a b, z :: l = a ++ x :: b ∧ ∀ y ∈ a, Cmp.equiv y x = false) ↔
          z = x ∨ (Cmp.equiv z x = false ∧ ∃ a b, l = a ++ x :: b ∧ ∀ y ∈ a, Cmp.equiv y x = false) := by
        intro l
        constructor
        · rintro ⟨a, b, h, ha⟩
          cases a with
          | nil => exact Or.inl (List.cons.inj h).1
          | cons w a =>
            obtain ⟨rfl, h'⟩ := List.cons.inj h
            exact Or.inr ⟨ha _ (List.mem_cons_self ..), a, b, h', fun y hy => ha y (List.mem_cons_of_mem _ hy)⟩
        · rintro (rfl | ⟨hz, a, b, rfl, ha⟩)
          · exact ⟨[], l, rfl, by simp⟩
          · refine ⟨z :: a, b, rfl, fun y hy => ?_⟩
            rcases List.mem_cons.1 hy with rfl | hy
            · exact hz
            · exact ha y hy
      cases hc : contains s1 z
      · rw [if_neg (by simp), ih, hcons]
        rw [contains_false] at hc
        constructor
        · rintro ⟨h1, h2⟩
          refine ⟨h1, Or.inr ⟨?_, h2⟩⟩
          cases hk : Cmp.equiv z x
          · rfl
          · exact absurd ((Mem_congr hk).2 h1) hc
        · rintro ⟨h1, rfl | ⟨_, h2⟩⟩
          · exact absurd h1 hc
          · exact ⟨h1, h2⟩
      · rw [if_pos rfl, hcons, hcons, ih]
        rw [contains_iff] at hc
        constructor
        · rintro (rfl | ⟨hz, h1, h2⟩)
          · exact ⟨hc, Or.inl rfl⟩
          · exact ⟨h1, Or.inr ⟨hz, h2⟩⟩
        · rintro ⟨h1, rfl | ⟨hz, h2⟩⟩
          · exact Or.inl rfl
          · exact Or.inr ⟨hz, h1, h2⟩
  rw [he]
  refine ⟨ofList_sorted _, fun t => ?_, fun x => ?_⟩
  · rw [Mem_ofList]
    constructor
    · rintro ⟨x, hx, hk⟩
      rw [List.mem_filter, contains_iff] at hx
      exact ⟨(Mem_congr hk).1 hx.2, x, hx.1, hk⟩
    · rintro ⟨h1, x, hx, hk⟩
      exact ⟨x, List.mem_filter.2 ⟨hx, contains_iff.2 ((Mem_congr hk).2 h1)⟩, hk⟩
  · rw [mem_ofList, hfilter]

/-- C36: `difference`. -/
theorem C36_difference {s1 : List α} (h1 : Sorted s1) (s2 : List α) :
    ∃ r, Terminates (fun fuel => difference fuel s1 s2) r ∧ Sorted r ∧ ∀ x, x ∈ r ↔ x ∈ s1 ∧ ¬ Mem x s2 := by
  obtain ⟨r, ht, hs, hm⟩ := (C36_remove h1 (.other s2)).2
  refine ⟨r, ?_, hs, hm⟩
  simpa only [difference, ofList_of_sorted h1] using ht

example : join 9 [1, 3] [2, 3] = some [1, 2, 3] ∧ intersection 9 [1, 3] [2, 3] = some [3] ∧
    difference 9 [1, 3] [2, 3] = some [1] ∧ intersectionList [1, 3] [3, 2, 3] = [3] ∧ remove 9 [1, 3] .self = some [] ∧
    restrictF 9 [1, 3] .self = some [1, 3] ∧ removeElem [1, 3] 3 = [1] ∧ removeList [1, 3] [3, 4] = [1] := by decide
example : join 9 [Tens.mk 31] [Tens.mk 38, Tens.mk 40] = some [Tens.mk 31, Tens.mk 40] := by decide
example : Sorted [1, 3] ∧ Sorted [Tens.mk 31, Tens.mk 40] := by
  constructor <;> simp [Sorted, Cmp.lt]

/-! ## C37 -/

/-- What the member `restrict` does for every set and argument: it keeps the elements that are *not* in
the argument. -/
theorem C37_actual {s : List α} (hs : Sorted s) (a : Arg α) :
    ∃ r, Terminates (fun fuel => restrict fuel s a) r ∧ Sorted r ∧ ∀ x, x ∈ r ↔ x ∈ s ∧ ¬ Mem x (a.now s) :=
  sweep_true hs _ (fun _ _ => find_isSome) a

/-- C37 as stated holds for the empty set only. -/
theorem C37_iff_partial {s : List α} (hs : Sorted s) (a : Arg α) :
    (∃ r, Terminates (fun fuel => restrict fuel s a) r ∧ ∀ x, x ∈ r ↔ x ∈ s ∧ Mem x (a.now s)) ↔ s = [] := by
  obtain ⟨r, ⟨n, hn⟩, _, hm⟩ := C37_actual hs a
  constructor
  · rintro ⟨r', ⟨n', hn'⟩, hm'⟩
    have h1 := hn (max n n') (Nat.le_max_left ..)
    have h2 := hn' (max n n') (Nat.le_max_right ..)
    simp only at h1 h2
    rw [h1] at h2
    cases h2
    cases s with
    | nil => rfl
    | cons y t =>
      have h3 := hm y
      have h4 := hm' y
      rw [h3] at h4
      by_cases hy : Mem y (a.now (y :: t))
      · exact absurd hy (h4.2 ⟨List.mem_cons_self .., hy⟩).2
      · exact absurd (h4.1 ⟨List.mem_cons_self .., hy⟩).2 hy
  · rintro rfl
    refine ⟨r, ⟨n, hn⟩, fun x => ?_⟩
    rw [hm]; simp

/-- C37 is false: {1,2}.restrict({1}) is {2}. -/
theorem C37_refuted : ∀ fuel, 3 ≤ fuel → restrict fuel [1, 2] (.other [1]) = some [2] := by
  intro fuel hf
  obtain ⟨k, rfl⟩ : ∃ k, fuel = k + 3 := ⟨fuel - 3, by omega⟩
  rfl

/-! ## C38 -/

/-- The operations of a program over set variables. -/
inductive Op (α : Type u) where
  | construct (x : Nat) (l : List α)
  | copy (x y : Nat)
  | insert (x : Nat) (t : α)
  | adjoin (x y : Nat)
  | removeElem (x : Nat) (t : α)
  | remove (x y : Nat)
  | restrict (x y : Nat)
  | removeList (x : Nat) (l : List α)
  | removeF (x y : Nat)
  | restrictF (x y : Nat)
  | join (z x y : Nat)
  | intersection (z x y : Nat)
  | intersectionList (z x : Nat) (l : List α)
  | difference (z x y : Nat)
  | duplicates (z : Nat) (l : List α)

def set (e : Nat → List α) (x : Nat) (s : List α) : Nat → List α := fun y => if y = x then s else e y

/-- The argument `y` of a function that changes `x`. -/
def argOf (e : Nat → List α) (x y : Nat) : Arg α := if x = y then .self else .other (e y)

def step (fuel : Nat) (e : Nat → List α) : Op α → Option (Nat → List α)
  | .construct x l => some (set e x (ofList l))
  | .copy x y => some (set e x (e y))
  | .insert x t => some (set e x (OSet.insert t (e x)))
  | .adjoin x y => (adjoin fuel (e x) (argOf e x y)).map (set e x)
  | .removeElem x t => some (set e x (removeElem (e x) t))
  | .remove x y => (remove fuel (e x) (argOf e x y)).map (set e x)
  | .restrict x y => (restrict fuel (e x) (argOf e x y)).map (set e x)
  | .removeList x l => some (set e x (removeList (e x) l))
  | .removeF x y => (removeF fuel (e x) (argOf e x y)).map (set e x)
  | .restrictF x y => (restrictF fuel (e x) (argOf e x y)).map (set e x)
  | .join z x y => (join fuel (e x) (e y)).map (set e z)
  | .intersection z x y => (intersection fuel (e x) (e y)).map (set e z)
  | .intersectionList z x l => some (set e z (intersectionList (e x) l))
  | .difference z x y => (difference fuel (e x) (e y)).map (set e z)
  | .duplicates z l => some (set e z (duplicateElements l))

def run (fuel : Nat) : (Nat → List α) → List (Op α) → Option (Nat → List α)
  | e, [] => some e
  | e, o :: os => (step fuel e o).bind fun e => run fuel e os

theorem sorted_set {e : Nat → List α} (he : ∀ x, Sorted (e x)) {x : Nat} {s : List α} (hs : Sorted s) :
    ∀ y, Sorted (set e x s y) := by
  intro y; unfold set; split
  · exact hs
  · exact he y

theorem step_ok {e : Nat → List α} (he : ∀ x, Sorted (e x)) (o : Op α) :
    ∃ e', (∃ n, ∀ fuel, n ≤ fuel → step fuel e o = some e') ∧ ∀ x, Sorted (e' x) := by
  have lift : ∀ {f : Nat → Option (List α)} {r : List α} {x : Nat}, Terminates f r → Sorted r →
      ∃ e', (∃ n, ∀ fuel, n ≤ fuel → (f fuel).map (set e x) = some e') ∧ ∀ x, Sorted (e' x) := by
    intro f r x ⟨n, hn⟩ hr
    exact ⟨set e x r, ⟨n, fun fuel hf => by rw [hn fuel hf]; rfl⟩, sorted_set he hr⟩
  cases o with
  | construct x l => exact ⟨_, ⟨0, fun _ _ => rfl⟩, sorted_set he (ofList_sorted l)⟩
  | copy x y => exact ⟨_, ⟨0, fun _ _ => rfl⟩, sorted_set he (he y)⟩
  | insert x t => exact ⟨_, ⟨0, fun _ _ => rfl⟩, sorted_set he (sorted_insert (he x))⟩
  | adjoin x y => obtain ⟨r, ht, hr, _⟩ := C36_adjoin (he x) (argOf e x y); exact lift ht hr
  | removeElem x t => exact ⟨_, ⟨0, fun _ _ => rfl⟩, sorted_set he (C36_removeElem (he x) t).1⟩
  | remove x y => obtain ⟨r, ht, hr, _⟩ := (C36_remove (he x) (argOf e x y)).1; exact lift ht hr
  | restrict x y => obtain ⟨r, ht, hr, _⟩ := C37_actual (he x) (argOf e x y); exact lift ht hr
  | removeList x l => exact ⟨_, ⟨0, fun _ _ => rfl⟩, sorted_set he (C36_removeList (he x) l).1⟩
  | removeF x y => obtain ⟨r, ht, hr, _⟩ := (C36_remove (he x) (argOf e x y)).2; exact lift ht hr
  | restrictF x y => obtain ⟨r, ht, hr, _⟩ := C36_restrict (he x) (argOf e x y); exact lift ht hr
  | join z x y => obtain ⟨r, ht, hr, _⟩ := C36_join (he x) (he y); exact lift ht hr
  | intersection z x y => obtain ⟨r, ht, hr, _⟩ := C36_intersection (he x) (e y); exact lift ht hr
  | intersectionList z x l => exact ⟨_, ⟨0, fun _ _ => rfl⟩, sorted_set he (C36_intersectionList (e x) l).1⟩
  | difference z x y => obtain ⟨r, ht, hr, _⟩ := C36_difference (he x) (e y); exact lift ht hr
  | duplicates z l =>
    exact ⟨_, ⟨0, fun _ _ => rfl⟩, sorted_set he (duplicateLoop_spec (pre := []) sorted_nil sorted_nil (fun _ => Iff.rfl)).1⟩

/-- C38: whatever program built the sets, all of them are strictly increasing. -/
theorem C38_increasing (os : List (Op α)) : ∃ e, (∃ n, ∀ fuel, n ≤ fuel → run fuel (fun _ => []) os = some e) ∧
    ∀ x, (toList (e x)).Pairwise (fun a b => Cmp.lt a b = true) := by
  have key : ∀ (os : List (Op α)) (e0 : Nat → List α), (∀ x, Sorted (e0 x)) →
      ∃ e, (∃ n, ∀ fuel, n ≤ fuel → run fuel e0 os = some e) ∧ ∀ x, Sorted (e x) := by
    intro os
    induction os with
    | nil => intro e0 h; exact ⟨e0, ⟨0, fun _ _ => rfl⟩, h⟩
    | cons o os ih =>
      intro e0 h
      obtain ⟨e1, ⟨n1, h1⟩, hs1⟩ := step_ok h o
      obtain ⟨e2, ⟨n2, h2⟩, hs2⟩ := ih e1 hs1
      refine ⟨e2, ⟨max n1 n2, fun fuel hf => ?_⟩, hs2⟩
      rw [run, h1 fuel (by omega)]
      exact h2 fuel (by omega)
  exact key os _ (fun _ => sorted_nil)

/-- C38: `make_set(l)` is increasing and holds exactly the elements of `l` (of equivalent ones the
first). -/
theorem C38_makeSet (l : List α) : (ofList l).Pairwise (fun a b => Cmp.lt a b = true) ∧
    (∀ t, Mem t (ofList l) ↔ Mem t l) ∧
    ∀ x, x ∈ ofList l ↔ ∃ a b, l = a ++ x :: b ∧ ∀ y ∈ a, Cmp.equiv y x = false :=
  ⟨ofList_sorted l, fun _ => Mem_ofList, fun _ => mem_ofList⟩

/-- C38: conversion to a list and back. -/
theorem C38_roundTrip {s : List α} (hs : Sorted s) : ofList (toList s) = s := ofList_of_sorted hs

example : (match run 9 (fun _ => []) [.construct 0 [3, 1, 2, 1], .construct 1 [5, 2], .adjoin 0 1, .removeElem 0 3, .join 2 0 1] with
    | some e => some (e 0, e 1, e 2)
    | none => none) = some ([1, 2, 5], [2, 5], [1, 2, 5]) := by decide

/-! ## C42 -/

/-- C42: `unique_elements(l)` iff no two positions hold equivalent elements. -/
theorem C42_unique (l : List α) : uniqueElements l = true ↔
    ∀ i j (hi : i < l.length) (hj : j < l.length), i < j → Cmp.equiv l[i] l[j] = false := by
  rw [uniqueElements, uniqueLoop_iff sorted_nil, List.pairwise_iff_getElem]
  exact ⟨fun h => h.2, fun h => ⟨fun _ _ => not_mem_nil, h⟩⟩

theorem countP_two {l : List α} {t : α} : 2 ≤ l.countP (fun x => Cmp.equiv x t) ↔
    ∃ a x b, l = a ++ x :: b ∧ Cmp.equiv x t = true ∧ Mem t a := by
  constructor
  · intro h
    obtain ⟨x, hx, hk⟩ := List.countP_pos_iff.1 (show 0 < l.countP (fun x => Cmp.equiv x t) by omega)
    obtain ⟨y, a, b, rfl, hy, ha⟩ := first_of_mem ⟨x, hx, hk⟩
    have ha0 : a.countP (fun x => Cmp.equiv x t) = 0 := by
      rw [List.countP_eq_zero]
      intro z hz hzt
      have := ha z hz
      rw [Cmp.equiv_trans hzt (Cmp.equiv_symm hy)] at this
      cases this
    rw [List.countP_append, List.countP_cons, ha0] at h
    simp only [hy, if_true] at h
    obtain ⟨z, hz, hzk⟩ := List.countP_pos_iff.1 (show 0 < b.countP (fun x => Cmp.equiv x t) by omega)
    obtain ⟨c, d, rfl⟩ := List.append_of_mem hz
    exact ⟨a ++ y :: c, z, d, by simp, hzk, y, by simp, hy⟩
  · rintro ⟨a, x, b, rfl, hk, y, hy, hyk⟩
    have : 0 < a.countP (fun x => Cmp.equiv x t) := List.countP_pos_iff.2 ⟨y, hy, hyk⟩
    rw [List.countP_append, List.countP_cons]
    simp only [hk, if_true]
    omega

/-- C42: `duplicate_elements(l)` is the set of the elements that occur at least twice. -/
theorem C42_duplicate (l : List α) : Sorted (duplicateElements l) ∧
    ∀ t, Mem t (duplicateElements l) ↔ 2 ≤ l.countP (fun x => Cmp.equiv x t) := by
  obtain ⟨h1, h2⟩ := duplicateLoop_spec (l := l) (pre := []) sorted_nil sorted_nil (fun _ => Iff.rfl)
  refine ⟨h1, fun t => ?_⟩
  rw [duplicateElements, h2, countP_two]
  exact ⟨fun h => h.elim (fun h => absurd h not_mem_nil) id, Or.inr⟩

/-- C42: a list has unique elements iff it has no duplicates. -/
theorem C42_unique_iff (l : List α) : uniqueElements l = true ↔ duplicateElements l = [] := by
  rw [C42_unique]
  constructor
  · intro h
    cases hd : duplicateElements l with
    | nil => rfl
    | cons x t =>
      have hm : Mem x (duplicateElements l) := by rw [hd]; exact mem_of_mem (List.mem_cons_self ..)
      rw [(C42_duplicate l).2, countP_two] at hm
      obtain ⟨a, y, b, rfl, hy, z, hz, hzk⟩ := hm
      obtain ⟨i, hi, rfl⟩ := List.getElem_of_mem hz
      have := h i a.length (by simp; omega) (by simp) hi
      rw [List.getElem_append_left hi, List.getElem_append_right (Nat.le_refl _)] at this
      simp only [Nat.sub_self, List.getElem_cons_zero] at this
      rw [Cmp.equiv_trans hzk (Cmp.equiv_symm hy)] at this
      cases this
  · intro h i j hi hj hij
    cases hk : Cmp.equiv l[i] l[j]
    · rfl
    · have : Mem l[j] (duplicateElements l) := by
        rw [(C42_duplicate l).2, countP_two]
        refine ⟨l.take j, l[j], l.drop (j + 1), ?_, Cmp.equiv_refl _, l[i], ?_, hk⟩
        · rw [← List.drop_eq_getElem_cons hj, List.take_append_drop]
        · rw [List.mem_take_iff_getElem]
          exact ⟨i, by omega, rfl⟩
      rw [h] at this
      exact absurd this not_mem_nil

example : uniqueElements [3, 1, 2] = true ∧ uniqueElements [3, 1, 3] = false ∧
    duplicateElements [3, 1, 3, 2, 1, 3] = [1, 3] := by decide

end Helper.SetC
