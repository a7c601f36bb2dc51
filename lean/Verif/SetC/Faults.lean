import Verif.SetC.Props
import Verif.MapC.Props
import Verif.ListC.Props
set_option linter.unusedSectionVars false
/-!
# Property C81: container functions that throw

The functions of container.hpp that change a container in a loop, with operations of the standard containers that may throw
(an allocation, a comparison or the copy of an element). The standard guarantees that `insert` of one element, `find`,
`erase` by key and `push_back` have no effect if they throw, and that `erase` by iterator does not throw.
-/
namespace Helper.SetC
open OSet

variable {α : Type u} {κ : Type u} {ν : Type v}

/-- The operation that throws, counted from now; `none`: no operation does. -/
abbrev Fault := Option Nat

/-- container.hpp:187-188 `adjoin`; the state when the exception leaves the function is the second component. -/
def adjoinF [Cmp α] (arg : Arg α) : Nat → Nat → List α → Fault → Option (Res Unit × List α)
  | 0, _, _, _ => none
  | fuel + 1, i, cur, f =>
    match (arg.now cur)[i]? with
    | none => some (.ok (), cur)
    | some x =>
      match f with
      | some 0 => some (.exn .badAlloc, cur)
      | f => adjoinF arg fuel (i + 1) (OSet.insert x cur) (f.map (· - 1))

/-- container.hpp:193-200, 229-236: the loops that erase; the test `p` may throw. -/
def sweepF (p : List α → α → Bool) (arg : Arg α) : Nat → Nat → List α → Fault → Option (Res Unit × List α)
  | 0, _, _, _ => none
  | fuel + 1, i, cur, f =>
    match cur[i]? with
    | none => some (.ok (), cur)
    | some x =>
      match f with
      | some 0 => some (.exn .badAlloc, cur)
      | f => if p (arg.now cur) x then sweepF p arg fuel i (cur.eraseIdx i) (f.map (· - 1))
             else sweepF p arg fuel (i + 1) cur (f.map (· - 1))

/-- container.hpp:201-204 `remove(vector)`. -/
def removeListF [Cmp α] (s : List α) : List α → Fault → Res Unit × List α
  | [], _ => (.ok (), s)
  | _ :: _, some 0 => (.exn .badAlloc, s)
  | x :: r, f => removeListF (OSet.erase x s) r (f.map (· - 1))

/-- container.hpp:273-274 `Map::adjoin`. -/
def mapAdjoinF [Cmp κ] (arg : MapC.Arg κ ν) : Nat → Nat → MapC.Map κ ν → Fault → Option (Res Unit × MapC.Map κ ν)
  | 0, _, _, _ => none
  | fuel + 1, i, cur, f =>
    match (arg.now cur)[i]? with
    | none => some (.ok (), cur)
    | some e =>
      match f with
      | some 0 => some (.exn .badAlloc, cur)
      | f => mapAdjoinF arg fuel (i + 1) (MapC.insert cur e.1 e.2) (f.map (· - 1))

/-- container.hpp:275-276 `remove_keys`. -/
def removeKeysF [Cmp κ] (m : MapC.Map κ ν) : List κ → Fault → Res Unit × MapC.Map κ ν
  | [], _ => (.ok (), m)
  | _ :: _, some 0 => (.exn .badAlloc, m)
  | k :: s, f => removeKeysF (OMap.erase k m) s (f.map (· - 1))

/-- container.hpp:89-92 `append(vector)` and `concatenate`; the argument may be the list itself. -/
def appendF (arg : ListC.Arg α) : Nat → Nat → List α → Fault → Option (Res Unit × List α)
  | 0, _, _, _ => none
  | fuel + 1, i, cur, f =>
    if i ≠ (arg.now cur).length then
      match (arg.now cur)[i]? with
      | none => some (.ub .outOfBounds, cur)
      | some x =>
        match f with
        | some 0 => some (.exn .badAlloc, cur)
        | f => appendF arg fuel ((i + 1) % 2 ^ 32) (cur ++ [x]) (f.map (· - 1))
    else some (.ok (), cur)

/-! ## Without faults these are the functions of the models -/

theorem adjoinF_none [Cmp α] (arg : Arg α) : ∀ (fuel i : Nat) (cur : List α),
    adjoinF arg fuel i cur none = (adjoinLoop arg fuel i cur).map fun r => (.ok (), r) := by
  intro fuel
  induction fuel with
  | zero => intro i cur; rfl
  | succ fuel ih =>
    intro i cur
    rw [adjoinF, adjoinLoop]
    cases (arg.now cur)[i]? with
    | none => rfl
    | some x => exact ih _ _

theorem sweepF_none [Cmp α] (p : List α → α → Bool) (arg : Arg α) : ∀ (fuel i : Nat) (cur : List α),
    sweepF p arg fuel i cur none = (sweepLoop p arg fuel i cur).map fun r => (.ok (), r) := by
  intro fuel
  induction fuel with
  | zero => intro i cur; rfl
  | succ fuel ih =>
    intro i cur
    rw [sweepF, sweepLoop]
    cases cur[i]? with
    | none => rfl
    | some x =>
      simp only
      split
      · exact ih _ _
      · exact ih _ _

theorem removeListF_none [Cmp α] : ∀ (l s : List α), removeListF s l none = (.ok (), removeList s l) := by
  intro l
  induction l with
  | nil => intro s; rfl
  | cons x l ih => intro s; exact ih _

theorem mapAdjoinF_none [Cmp κ] (arg : MapC.Arg κ ν) : ∀ (fuel i : Nat) (cur : MapC.Map κ ν),
    mapAdjoinF arg fuel i cur none = (MapC.adjoinLoop arg fuel i cur).map fun r => (.ok (), r) := by
  intro fuel
  induction fuel with
  | zero => intro i cur; rfl
  | succ fuel ih =>
    intro i cur
    rw [mapAdjoinF, MapC.adjoinLoop]
    cases (arg.now cur)[i]? with
    | none => rfl
    | some x => exact ih _ _

theorem removeKeysF_none [Cmp κ] : ∀ (l : List κ) (m : MapC.Map κ ν), removeKeysF m l none = (.ok (), MapC.removeKeys m l) := by
  intro l
  induction l with
  | nil => intro s; rfl
  | cons x l ih => intro s; exact ih _

/-- A result with the state in which it is reached, without the state of an undefined one. -/
def plain : Res Unit × List α → Res (List α)
  | (.ok _, l) => .ok l
  | (.exn e, _) => .exn e
  | (.ub k, _) => .ub k
  | (.abort, _) => .abort

theorem appendF_none (arg : ListC.Arg α) : ∀ (fuel i : Nat) (cur : List α),
    (appendF arg fuel i cur none).map plain = ListC.appendLoop arg fuel i cur := by
  intro fuel
  induction fuel with
  | zero => intro i cur; rfl
  | succ fuel ih =>
    intro i cur
    rw [appendF, ListC.appendLoop]
    split
    · cases (arg.now cur)[i]? with
      | none => rfl
      | some x => exact ih _ _
    · rfl

/-- C81: without faults the functions are those of C36, C39-C43. -/
theorem C81_no_fault [Cmp α] [Cmp κ] (a : Arg α) (b : MapC.Arg κ ν) (d : ListC.Arg α) (p : List α → α → Bool) (fuel : Nat) (s l : List α) (m : MapC.Map κ ν) (ks : List κ) :
    adjoinF a fuel 0 s none = (adjoin fuel s a).map (fun r => (.ok (), r)) ∧
    sweepF p a fuel 0 s none = (sweepLoop p a fuel 0 s).map (fun r => (.ok (), r)) ∧
    removeListF s l none = (.ok (), removeList s l) ∧
    mapAdjoinF b fuel 0 m none = (MapC.adjoin fuel m b).map (fun r => (.ok (), r)) ∧
    removeKeysF m ks none = (.ok (), MapC.removeKeys m ks) ∧
    (appendF d fuel 0 l none).map plain = ListC.appendList fuel l d ∧
    (appendF d fuel 0 l none).map plain = ListC.concatenate fuel l d :=
  ⟨adjoinF_none _ _ _ _, sweepF_none _ _ _ _ _, removeListF_none _ _, mapAdjoinF_none _ _ _ _, removeKeysF_none _ _,
    appendF_none _ _ _ _, appendF_none _ _ _ _⟩

/-! ## With a fault: the effect of the first `k` steps -/

theorem adjoinF_other [Cmp α] (t : List α) : ∀ (fuel i k : Nat) (cur : List α), t.length - i < fuel →
    adjoinF (.other t) fuel i cur (some k) =
      some (if k < t.length - i then .exn .badAlloc else .ok (), ((t.drop i).take k).foldl (fun s x => insert x s) cur) := by
  intro fuel
  induction fuel with
  | zero => intro i k cur h; omega
  | succ fuel ih =>
    intro i k cur h
    rw [adjoinF, show (Arg.other t).now cur = t from rfl]
    by_cases hi : i < t.length
    · rw [List.getElem?_eq_getElem hi, List.drop_eq_getElem_cons hi]
      cases k with
      | zero => simp; omega
      | succ k =>
        simp only [Option.map_some, Nat.add_sub_cancel]
        rw [ih (i + 1) k _ (by omega)]
        simp only [List.take_succ_cons, List.foldl_cons]
        congr 2
        by_cases hk : k < t.length - (i + 1)
        · rw [if_pos hk, if_pos (by omega)]
        · rw [if_neg hk, if_neg (by omega)]
    · rw [List.getElem?_eq_none (by omega), List.drop_of_length_le (by omega)]
      simp only [List.take_nil, List.foldl_nil]
      rw [if_neg (by omega)]

theorem adjoinF_self [Cmp α] [StrictWeak α] : ∀ (fuel i k : Nat) (cur : List α), Sorted cur → cur.length - i < fuel →
    adjoinF .self fuel i cur (some k) = some (if k < cur.length - i then .exn .badAlloc else .ok (), cur) := by
  intro fuel
  induction fuel with
  | zero => intro i k cur _ h; omega
  | succ fuel ih =>
    intro i k cur hs h
    rw [adjoinF, show Arg.self.now cur = cur from rfl]
    by_cases hi : i < cur.length
    · rw [List.getElem?_eq_getElem hi]
      cases k with
      | zero => simp; omega
      | succ k =>
        simp only [Option.map_some, Nat.add_sub_cancel]
        rw [insert_of_mem hs (mem_of_mem (List.getElem_mem hi)), ih (i + 1) k cur hs (by omega)]
        congr 2
        by_cases hk : k < cur.length - (i + 1)
        · rw [if_pos hk, if_pos (by omega)]
        · rw [if_neg hk, if_neg (by omega)]
    · rw [List.getElem?_eq_none (by omega)]
      simp only
      rw [if_neg (by omega)]

/-- C81: if `adjoin` throws in the insertion of element number `k` of the argument, the set is the one that `adjoin` of the first
`k` elements gives: a valid set which has lost nothing and has only elements of the two sets. -/
theorem C81_adjoin [Cmp α] [StrictWeak α] {s : List α} (hs : Sorted s) (a : Arg α) (k fuel : Nat) (hf : (a.now s).length < fuel) :
    ∃ r, adjoinF a fuel 0 s (some k) = some (if k < (a.now s).length then .exn .badAlloc else .ok (), r) ∧ Sorted r ∧
      (∀ x ∈ s, x ∈ r) ∧ (∀ x ∈ r, x ∈ s ∨ x ∈ (a.now s).take k) ∧ ∀ t, Mem t r ↔ Mem t s ∨ Mem t ((a.now s).take k) := by
  cases a with
  | self =>
    refine ⟨s, by rw [adjoinF_self fuel 0 k s hs (by simpa [Arg.now] using hf)]; rfl, hs, fun x h => h, fun x h => Or.inl h, fun t => ⟨Or.inl, ?_⟩⟩
    rintro (h | ⟨x, h, he⟩)
    · exact h
    · exact ⟨x, List.mem_of_mem_take h, he⟩
  | other l =>
    obtain ⟨h1, h2⟩ := foldl_insert (l := l.take k) hs
    refine ⟨_, by rw [adjoinF_other l fuel 0 k s (by simpa [Arg.now] using hf)]; rfl, h1, fun x h => (h2 x).2 (Or.inl h), fun x h => ?_, fun t => ?_⟩
    · rcases (h2 x).1 h with h | ⟨_, a, b, h, _⟩
      · exact Or.inl h
      · right; show x ∈ l.take k; rw [h]; simp
    · show Mem t ((l.take k).foldl (fun s x => insert x s) s) ↔ Mem t s ∨ Mem t (l.take k)
      constructor
      · rintro ⟨x, hx, he⟩
        rcases (h2 x).1 hx with h | ⟨_, a, b, h, _⟩
        · exact Or.inl ⟨x, h, he⟩
        · exact Or.inr ⟨x, by rw [h]; simp, he⟩
      · intro h
        by_cases hm : Mem t s
        · obtain ⟨x, hx, he⟩ := hm
          exact ⟨x, (h2 x).2 (Or.inl hx), he⟩
        · obtain ⟨x, a, b, he, hk, ha⟩ := first_of_mem (h.resolve_left hm)
          exact ⟨x, (h2 x).2 (Or.inr ⟨fun hx => hm ((Mem_congr hk).1 hx), a, b, he, ha⟩), hk⟩

example : adjoinF (.other [1, 4, 6]) 9 0 [2, 4] (some 2) = some (.exn .badAlloc, [1, 2, 4]) ∧
    adjoinF (.other [1, 4, 6]) 9 0 [2, 4] (some 3) = some (.ok (), [1, 2, 4, 6]) := by decide +kernel

/-- Erasing in place: of the elements from position `i` on, the first `k` have been tested. -/
theorem sweepF_spec [Cmp α] [StrictWeak α] (p : List α → α → Bool) (arg : Arg α) (q : α → Bool) :
    ∀ (fuel i k : Nat) (cur : List α), (∀ c : List α, c.Sublist cur → ∀ x ∈ c, p (arg.now c) x = q x) → cur.length - i < fuel →
    sweepF p arg fuel i cur (some k) = some (if k < cur.length - i then .exn .badAlloc else .ok (),
      cur.take i ++ ((cur.drop i).take k).filter (fun x => !q x) ++ (cur.drop i).drop k) := by
  intro fuel
  induction fuel with
  | zero => intro i k cur _ h; omega
  | succ fuel ih =>
    intro i k cur hp h
    rw [sweepF]
    by_cases hi : i < cur.length
    · rw [List.getElem?_eq_getElem hi, List.drop_eq_getElem_cons hi]
      cases k with
      | zero => simp; omega
      | succ k =>
        simp only [Option.map_some, Nat.add_sub_cancel]
        rw [hp cur (List.Sublist.refl _) _ (List.getElem_mem hi)]
        simp only [List.take_succ_cons, List.drop_succ_cons]
        have hd := drop_eraseIdx hi
        by_cases hq : q cur[i] = true
        · rw [if_pos hq, ih i k _ (fun c hc x hx => hp c (hc.trans (List.eraseIdx_sublist ..)) x hx) (by rw [List.length_eraseIdx_of_lt hi]; omega)]
          rw [hd.1, hd.2, List.filter_cons_of_neg (by simpa using hq), List.length_eraseIdx_of_lt hi]
          congr 2
          by_cases hk : k < cur.length - 1 - i
          · rw [if_pos hk, if_pos (by omega)]
          · rw [if_neg hk, if_neg (by omega)]
        · rw [if_neg hq, ih (i + 1) k cur hp (by omega), List.filter_cons_of_pos (by simpa using hq)]
          have e : cur.take (i + 1) = cur.take i ++ [cur[i]] := by rw [List.take_add_one, List.getElem?_eq_getElem hi]; rfl
          rw [e]
          congr 2
          · by_cases hk : k < cur.length - (i + 1)
            · rw [if_pos hk, if_pos (by omega)]
            · rw [if_neg hk, if_neg (by omega)]
          · simp only [List.append_assoc, List.cons_append, List.nil_append]
    · rw [List.getElem?_eq_none (by omega), List.drop_of_length_le (by omega), List.take_of_length_le (by omega)]
      simp only [List.take_nil, List.filter_nil, List.drop_nil, List.append_nil]
      rw [if_neg (by omega)]

/-- C81: if one of the erasing functions throws in the test of element number `k` of the set, the elements before it have been treated and
the others are untouched: a valid set from which only elements to be removed are missing. `remove` and the member
`restrict` (which removes, see C37) are the first part, the free `restrict` the second. -/
theorem C81_sweep [Cmp α] [StrictWeak α] {s : List α} (hs : Sorted s) (a : Arg α) (k fuel : Nat) (hf : s.length < fuel) :
    (∃ r, sweepF (fun s x => (OSet.find x s).isSome) a fuel 0 s (some k) = some (if k < s.length then .exn .badAlloc else .ok (), r) ∧ Sorted r ∧
      ∀ x, x ∈ r ↔ (x ∈ s.take k ∧ ¬ Mem x (a.now s)) ∨ x ∈ s.drop k) ∧
    (∃ r, sweepF (fun s x => !contains s x) a fuel 0 s (some k) = some (if k < s.length then .exn .badAlloc else .ok (), r) ∧ Sorted r ∧
      ∀ x, x ∈ r ↔ (x ∈ s.take k ∧ Mem x (a.now s)) ∨ x ∈ s.drop k) := by
  have sub : ∀ q : α → Bool, ((s.take k).filter q ++ s.drop k).Sublist s := fun q => by
    have := List.Sublist.append (List.filter_sublist (p := q) (l := s.take k)) (List.Sublist.refl (s.drop k))
    rwa [List.take_append_drop] at this
  have key : ∀ c : List α, c.Sublist s → ∀ x ∈ c, (Mem x (a.now c) ↔ Mem x (a.now s)) := by
    intro c hc x hx
    cases a with
    | other l => exact Iff.rfl
    | self => exact ⟨fun _ => mem_of_mem (hc.subset hx), fun _ => mem_of_mem hx⟩
  constructor
  · refine ⟨(s.take k).filter (fun x => !(OSet.find x (a.now s)).isSome) ++ s.drop k, ?_, sorted_sublist hs (sub _), fun x => ?_⟩
    · rw [sweepF_spec _ a (fun x => (OSet.find x (a.now s)).isSome) fuel 0 k s ?_ (by omega)]
      · simp
      · intro c hc x hx
        rw [Bool.eq_iff_iff, find_isSome, find_isSome]
        exact key c hc x hx
    · rw [List.mem_append, List.mem_filter]
      refine or_congr_left (and_congr_right fun _ => ?_)
      rw [← find_isSome]; simp
  · refine ⟨(s.take k).filter (fun x => contains (a.now s) x) ++ s.drop k, ?_, sorted_sublist hs (sub _), fun x => ?_⟩
    · rw [sweepF_spec _ a (fun x => !contains (a.now s) x) fuel 0 k s ?_ (by omega)]
      · simp
      · intro c hc x hx
        congr 1
        rw [Bool.eq_iff_iff, contains_iff, contains_iff]
        exact key c hc x hx
    · rw [List.mem_append, List.mem_filter, contains_iff]

example : sweepF (fun s x => (OSet.find x s).isSome) (.other [1, 2, 3]) 9 0 [1, 2, 3, 4] (some 2) = some (.exn .badAlloc, [3, 4]) ∧
    sweepF (fun s x => !contains s x) (.other [3]) 9 0 [1, 2, 3, 4] (some 1) = some (.exn .badAlloc, [2, 3, 4]) := by decide +kernel

/-- C81: if `remove(vector)` throws at element `k` of the vector, the elements before it are removed and no others. -/
theorem C81_removeList [Cmp α] [StrictWeak α] {s : List α} (hs : Sorted s) (l : List α) (k : Nat) :
    ∃ r, removeListF s l (some k) = (if k < l.length then .exn .badAlloc else .ok (), r) ∧ Sorted r ∧
      ∀ x, x ∈ r ↔ x ∈ s ∧ ¬ Mem x (l.take k) := by
  refine ⟨removeList s (l.take k), ?_, sorted_removeList hs, fun x => mem_removeList⟩
  clear hs
  induction l generalizing s k with
  | nil => cases k <;> rfl
  | cons y l ih =>
    cases k with
    | zero => rfl
    | succ k =>
      simp only [removeListF, Option.map_some, Nat.add_sub_cancel, List.take_succ_cons, removeList, List.length_cons, Nat.add_lt_add_iff_right]
      exact ih k

example : removeListF [1, 2, 3] [3, 1] (some 1) = (.exn .badAlloc, [1, 2]) := by decide +kernel

theorem mapAdjoinF_other [Cmp κ] (t : MapC.Map κ ν) : ∀ (fuel i k : Nat) (cur : MapC.Map κ ν), t.length - i < fuel →
    mapAdjoinF (.other t) fuel i cur (some k) =
      some (if k < t.length - i then .exn .badAlloc else .ok (), ((t.drop i).take k).foldl (fun m e => MapC.insert m e.1 e.2) cur) := by
  intro fuel
  induction fuel with
  | zero => intro i k cur h; omega
  | succ fuel ih =>
    intro i k cur h
    rw [mapAdjoinF, show (MapC.Arg.other t).now cur = t from rfl]
    by_cases hi : i < t.length
    · rw [List.getElem?_eq_getElem hi, List.drop_eq_getElem_cons hi]
      cases k with
      | zero => simp; omega
      | succ k =>
        simp only [Option.map_some, Nat.add_sub_cancel]
        rw [ih (i + 1) k _ (by omega)]
        simp only [List.take_succ_cons, List.foldl_cons]
        congr 2
        by_cases hk : k < t.length - (i + 1)
        · rw [if_pos hk, if_pos (by omega)]
        · rw [if_neg hk, if_neg (by omega)]
    · rw [List.getElem?_eq_none (by omega), List.drop_of_length_le (by omega)]
      simp only [List.take_nil, List.foldl_nil]
      rw [if_neg (by omega)]

theorem mapAdjoinF_self [Cmp κ] [StrictWeak κ] : ∀ (fuel i k : Nat) (cur : MapC.Map κ ν), OMap.Sorted cur → cur.length - i < fuel →
    mapAdjoinF .self fuel i cur (some k) = some (if k < cur.length - i then .exn .badAlloc else .ok (), cur) := by
  intro fuel
  induction fuel with
  | zero => intro i k cur _ h; omega
  | succ fuel ih =>
    intro i k cur hs h
    rw [mapAdjoinF, show MapC.Arg.self.now cur = cur from rfl]
    by_cases hi : i < cur.length
    · rw [List.getElem?_eq_getElem hi]
      cases k with
      | zero => simp; omega
      | succ k =>
        simp only [Option.map_some, Nat.add_sub_cancel]
        have e : MapC.insert cur cur[i].1 cur[i].2 = cur :=
          OMap.insert_of_mem hs ⟨cur[i], List.getElem_mem hi, Cmp.equiv_refl _⟩
        rw [e, ih (i + 1) k cur hs (by omega)]
        congr 2
        by_cases hk : k < cur.length - (i + 1)
        · rw [if_pos hk, if_pos (by omega)]
        · rw [if_neg hk, if_neg (by omega)]
    · rw [List.getElem?_eq_none (by omega)]
      simp only
      rw [if_neg (by omega)]

/-- C81: if `Map::adjoin` throws at element `k` of the argument, the map is the one that `adjoin` of the first `k` elements gives. -/
theorem C81_mapAdjoin [Cmp κ] [StrictWeak κ] {m : MapC.Map κ ν} (hm : OMap.Sorted m) (a : MapC.Arg κ ν) (ha : OMap.Sorted (a.now m)) (k fuel : Nat)
    (hf : (a.now m).length < fuel) :
    ∃ r, mapAdjoinF a fuel 0 m (some k) = some (if k < (a.now m).length then .exn .badAlloc else .ok (), r) ∧ OMap.Sorted r ∧
      ∀ x v, MapC.Bound r x v ↔ MapC.Bound m x v ∨ (MapC.Bound ((a.now m).take k) x v ∧ ¬ MapC.HasKey m x) := by
  cases a with
  | self =>
    refine ⟨m, by rw [mapAdjoinF_self fuel 0 k m hm (by simpa [MapC.Arg.now] using hf)]; rfl, hm, fun x v => ⟨Or.inl, ?_⟩⟩
    rintro (h | ⟨⟨y, h, he⟩, _⟩)
    · exact h
    · exact ⟨y, List.mem_of_mem_take h, he⟩
  | other l =>
    obtain ⟨h1, h2⟩ := MapC.foldl_insert (l := l.take k) hm (OMap.sorted_sublist ha (List.take_sublist k l))
    exact ⟨_, by rw [mapAdjoinF_other l fuel 0 k m (by simpa [MapC.Arg.now] using hf)]; rfl, h1, h2⟩

example : mapAdjoinF (.other [(1, 'x'), (2, 'y'), (3, 'z')]) 9 0 [(2, 'b')] (some 2) = some (.exn .badAlloc, [(1, 'x'), (2, 'b')]) := by
  decide +kernel

/-- C81: if `remove_keys` throws at key `k`, the keys before it are removed and no others. -/
theorem C81_removeKeys [Cmp κ] [StrictWeak κ] {m : MapC.Map κ ν} (hm : OMap.Sorted m) (l : List κ) (k : Nat) :
    ∃ r, removeKeysF m l (some k) = (if k < l.length then .exn .badAlloc else .ok (), r) ∧ OMap.Sorted r ∧
      ∀ e, e ∈ r ↔ e ∈ m ∧ ¬ Mem e.1 (l.take k) := by
  induction l generalizing m k with
  | nil => exact ⟨m, by cases k <;> rfl, hm, fun e => by simp [not_mem_nil]⟩
  | cons y l ih =>
    cases k with
    | zero => exact ⟨m, rfl, hm, fun e => by simp [not_mem_nil]⟩
    | succ k =>
      obtain ⟨r, h1, h2, h3⟩ := ih (OMap.sorted_erase (k := y) hm) k
      refine ⟨r, ?_, h2, fun e => ?_⟩
      · simp only [removeKeysF, Option.map_some, Nat.add_sub_cancel, List.length_cons, Nat.add_lt_add_iff_right]
        exact h1
      · rw [h3, OMap.mem_erase, List.take_succ_cons, and_assoc]
        refine and_congr_right fun _ => ?_
        constructor
        · rintro ⟨h4, h5⟩ ⟨z, hz, he⟩
          rcases List.mem_cons.1 hz with rfl | hz
          · rw [Cmp.equiv_symm he] at h4; cases h4
          · exact h5 ⟨z, hz, he⟩
        · intro h
          refine ⟨?_, fun ⟨z, hz, he⟩ => h ⟨z, List.mem_cons_of_mem _ hz, he⟩⟩
          cases hc : Cmp.equiv e.1 y
          · rfl
          · exact absurd ⟨y, List.mem_cons_self, Cmp.equiv_symm hc⟩ h

example : removeKeysF [(1, 'x'), (2, 'y')] [2, 1] (some 1) = (.exn .badAlloc, [(1, 'x')]) := by decide +kernel

/-- The loop of `append` ends before its `k`-th push_back (counted from 0): the argument is another list, short enough for the
`unsigned int` index, of at most `k` elements, or the list itself and empty. -/
def Ends (l : List α) (k : Nat) : ListC.Arg α → Prop
  | .other t => t.length ≤ k ∧ t.length < 2 ^ 32
  | .self => l = []

theorem now_mono {a : ListC.Arg α} {cur : List α} {i : Nat} {y : α} (x : α) (h : (a.now cur)[i]? = some y) :
    (a.now (cur ++ [x]))[i]? = some y := by
  cases a with
  | other t => exact h
  | self =>
    have h : cur[i]? = some y := h
    show (cur ++ [x])[i]? = some y
    obtain ⟨hi, _⟩ := List.getElem?_eq_some_iff.1 h
    rw [List.getElem?_append_left hi, h]

theorem appendF_throws (a : ListC.Arg α) (l : List α) : ∀ (k fuel m : Nat) (p : List α), k < fuel → p.length = m →
    (∀ j < m, p[j]? = (a.now (l ++ p))[j % 2 ^ 32]?) → ¬ Ends l (m + k) a →
    ∃ q : List α, appendF a fuel (m % 2 ^ 32) (l ++ p) (some k) = some (.exn .badAlloc, l ++ q) ∧ q.length = m + k ∧
      ∀ j < m + k, q[j]? = (a.now (l ++ q))[j % 2 ^ 32]? := by
  intro k
  induction k with
  | zero =>
    intro fuel m p hf hp hj he
    obtain ⟨fuel, rfl⟩ : ∃ n, fuel = n + 1 := ⟨fuel - 1, by omega⟩
    have hlt : m % 2 ^ 32 < (a.now (l ++ p)).length := by
      cases a with
      | other t => simp only [Ends] at he; simp only [ListC.Arg.now]; omega
      | self =>
        have : 0 < l.length := List.length_pos_iff.2 he
        simp only [ListC.Arg.now, List.length_append]; omega
    refine ⟨p, ?_, hp, hj⟩
    rw [appendF, if_pos (by omega), List.getElem?_eq_getElem hlt]
    rfl
  | succ k ih =>
    intro fuel m p hf hp hj he
    obtain ⟨fuel, rfl⟩ : ∃ n, fuel = n + 1 := ⟨fuel - 1, by omega⟩
    have hlt : m % 2 ^ 32 < (a.now (l ++ p)).length := by
      cases a with
      | other t => simp only [Ends] at he; simp only [ListC.Arg.now]; omega
      | self =>
        have : 0 < l.length := List.length_pos_iff.2 he
        simp only [ListC.Arg.now, List.length_append]; omega
    rw [appendF, if_pos (by omega)]
    have hx := List.getElem?_eq_getElem hlt
    generalize (a.now (l ++ p))[m % 2 ^ 32] = x at hx
    rw [hx]
    have hk : m + (k + 1) = m + 1 + k := by omega
    simp only [Option.map_some, Nat.add_sub_cancel, List.append_assoc]
    rw [hk] at he ⊢
    have hmod : (m % 2 ^ 32 + 1) % 2 ^ 32 = (m + 1) % 2 ^ 32 := by omega
    rw [hmod]
    refine ih fuel (m + 1) (p ++ [x]) (by omega) (by simp [hp]) (fun j hjm => ?_) he
    rw [← List.append_assoc]
    by_cases hjm' : j < m
    · have h1 := hj j hjm'
      have h2 : p[j]? = some p[j] := List.getElem?_eq_getElem (by omega)
      rw [List.getElem?_append_left (by omega), h2]
      exact (now_mono x (by rw [← h1, h2])).symm
    · have : j = m := by omega
      subst this
      rw [List.getElem?_append_right (by omega), now_mono x hx]
      simp [hp]

/-- C81: if a `push_back` of `append` or `concatenate` throws after `k` others, these `k` elements have been appended and nothing
else has happened; element `j` of them is the one with the index `j` of the argument (which may be the list itself), modulo 2^32. -/
theorem C81_append (a : ListC.Arg α) (l : List α) {k fuel : Nat} (hf : k < fuel) (he : ¬ Ends l k a) :
    ∃ q : List α, appendF a fuel 0 l (some k) = some (.exn .badAlloc, l ++ q) ∧ q.length = k ∧
      ∀ j < k, q[j]? = (a.now (l ++ q))[j % 2 ^ 32]? := by
  have h := appendF_throws a l k fuel 0 [] hf rfl (by simp) (by simpa using he)
  simpa using h

theorem appendF_ends (t : List α) (ht : t.length < 2 ^ 32) (f : Fault) (hk : ∀ k, f = some k → t.length ≤ k) :
    ∀ (fuel i : Nat) (cur : List α), i ≤ t.length → t.length - i < fuel →
    appendF (.other t) fuel i cur (f.map (· - i)) = some (.ok (), cur ++ t.drop i) := by
  intro fuel
  induction fuel with
  | zero => intro i cur _ h; omega
  | succ fuel ih =>
    intro i cur hi h
    rw [appendF]
    have hnow : (ListC.Arg.other t).now cur = t := rfl
    rw [hnow]
    by_cases hl : i = t.length
    · subst hl; simp
    · have hlt : i < t.length := by omega
      rw [if_pos (show i ≠ t.length from hl), List.getElem?_eq_getElem hlt, List.drop_eq_getElem_cons hlt]
      have h1 := ih (i + 1) (cur ++ [t[i]]) (by omega) (by omega)
      rw [Nat.mod_eq_of_lt (show i + 1 < 2 ^ 32 by omega)]
      cases f with
      | none => simpa using h1
      | some k =>
        have hk := hk k rfl
        obtain ⟨d, hd⟩ : ∃ d, k - i = d + 1 := ⟨k - i - 1, by omega⟩
        have hd' : k - (i + 1) = d := by omega
        simp only [Option.map_some, hd', hd] at h1 ⊢
        simpa using h1

/-- C81: if none of the push_backs that `append` or `concatenate` makes throws, all elements have been appended. -/
theorem C81_append_ends (a : ListC.Arg α) (l : List α) {k fuel : Nat} (hf : (a.now l).length < fuel) (he : Ends l k a) :
    appendF a fuel 0 l (some k) = some (.ok (), l ++ a.now l) := by
  cases a with
  | other t =>
    have h := appendF_ends t he.2 (some k) (fun k' h => by cases h; exact he.1) fuel 0 l (Nat.zero_le _) hf
    simpa [ListC.Arg.now] using h
  | self =>
    have he : l = [] := he
    subst he
    obtain ⟨fuel, rfl⟩ : ∃ n, fuel = n + 1 := ⟨fuel - 1, by omega⟩
    simp [appendF, ListC.Arg.now]

/-- C81: an `append` of a list of fewer than 2^32 elements that throws has appended the elements before. -/
theorem C81_append_other (l t : List α) (ht : t.length < 2 ^ 32) {k fuel : Nat} (hf : t.length < fuel) :
    appendF (.other t) fuel 0 l (some k) = some (if k < t.length then .exn .badAlloc else .ok (), l ++ t.take k) := by
  by_cases hk : k < t.length
  · obtain ⟨q, h1, h2, h3⟩ := C81_append (.other t) l (k := k) (fuel := fuel) (by omega) (fun h => by have := h.1; omega)
    rw [h1, if_pos hk]
    have : q = t.take k := by
      apply List.ext_getElem?
      intro j
      by_cases hj : j < k
      · rw [h3 j hj, Nat.mod_eq_of_lt (by omega), List.getElem?_take_of_lt hj]; rfl
      · rw [List.getElem?_eq_none (by omega), List.getElem?_eq_none (by rw [List.length_take]; omega)]
    rw [this]
  · rw [C81_append_ends (.other t) l hf ⟨by omega, ht⟩, if_neg hk, List.take_of_length_le (by omega)]
    rfl

example : appendF (.other [3, 4]) 9 0 [1, 2] (some 1) = some (.exn .badAlloc, [1, 2, 3]) := by decide +kernel
example : appendF (.other [3, 4]) 9 0 [1, 2] (some 2) = some (.ok (), [1, 2, 3, 4]) := by decide +kernel
example : appendF .self 9 0 [1, 2] (some 5) = some (.exn .badAlloc, [1, 2, 1, 2, 1, 2, 1]) := by decide +kernel
example : ¬ Ends [1, 2] 5 .self := by simp [Ends]
example : Ends [1, 2] 2 (.other [3, 4]) := by simp [Ends]

end Helper.SetC
