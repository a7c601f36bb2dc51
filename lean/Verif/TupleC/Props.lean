import Verif.TupleC.Model
/-!
# Property C60
-/
set_option linter.unusedSectionVars false
namespace Helper.TupleC

variable {V : Type}

theorem upd_same (s : Store V) (x : Nat) (v : V) : upd s x v x = v := if_pos rfl
theorem upd_other (s : Store V) {x y : Nat} (v : V) (h : y ≠ x) : upd s x v y = s y := if_neg h

/-- C60: `make_lpair(a,b) = make_pair(e1,e2)`, the expressions reading any variables, also `a` and `b`: the values are those
before the assignment, and nothing else changes. If both are the same variable it gets the second value. -/
theorem C60_pair (a b : Nat) (e1 e2 : Store V → V) (s : Store V) :
    let s' := assignPair (makeLpair a b) (makePair e1 e2 s) s
    (a ≠ b → s' a = e1 s) ∧ s' b = e2 s ∧ ∀ y, y ≠ a → y ≠ b → s' y = s y := by
  refine ⟨fun h => ?_, ?_, fun y h1 h2 => ?_⟩
  · simp [assignPair, makeLpair, makePair, upd, h]
  · simp [assignPair, makeLpair, makePair, upd]
  · simp [assignPair, makeLpair, makePair, upd, h1, h2]

/-- C60: `make_lpair(a,b) = make_pair(b,a)` swaps. -/
theorem C60_swap (a b : Nat) (s : Store V) :
    let s' := assignPair (makeLpair a b) (makePair (· b) (· a) s) s
    s' a = s b ∧ s' b = s a ∧ ∀ y, y ≠ a → y ≠ b → s' y = s y := by
  obtain ⟨h1, h2, h3⟩ := C60_pair a b (· b) (· a) s
  refine ⟨?_, h2, h3⟩
  by_cases h : a = b
  · subst h; exact h2
  · exact h1 h

/-- The exact effect of assigning a pair of references: `make_lpair(a,b) = make_lpair(c,d)`. -/
theorem C60_refs (a b c d : Nat) (s : Store V) :
    let s' := assignPairRefs (makeLpair a b) (makeLpair c d) s
    (a ≠ b → s' a = s c) ∧ s' b = (if d = a then s c else s d) ∧ ∀ y, y ≠ a → y ≠ b → s' y = s y := by
  refine ⟨fun h => ?_, ?_, fun y h1 h2 => ?_⟩
  · simp [assignPairRefs, makeLpair, upd, h]
  · exact upd_same _ _ _
  · simp [assignPairRefs, makeLpair, upd, h1, h2]

/-- So `make_lpair(a,b) = make_lpair(b,a)` does not swap: both variables get the value of `b`. -/
theorem C60_refs_noSwap (a b : Nat) (s : Store V) :
    let s' := assignPairRefs (makeLpair a b) (makeLpair b a) s
    s' a = s b ∧ s' b = s b := by
  obtain ⟨h1, h2, _⟩ := C60_refs a b b a s
  rw [if_pos rfl] at h2
  refine ⟨?_, h2⟩
  by_cases h : a = b
  · subst h; exact h2
  · exact h1 h

theorem foldl_other (refs : List Nat) (vals : List V) (y : Nat) : ∀ (ord : List Nat) (s : Store V),
    (∀ i ∈ ord, refs[i]? ≠ some y) → ord.foldl (assignComp refs vals) s y = s y := by
  intro ord
  induction ord with
  | nil => intro s _; rfl
  | cons i ord ih =>
    intro s h
    rw [List.foldl_cons, ih _ fun j hj => h j (List.mem_cons_of_mem _ hj)]
    unfold assignComp
    cases hr : refs[i]? with
    | none => rfl
    | some r =>
      cases vals[i]? with
      | none => rfl
      | some v =>
        refine upd_other _ _ ?_
        rintro rfl
        exact h i List.mem_cons_self hr

/-- The value left in a variable is that of the last component assigned to it. -/
theorem foldl_last (refs : List Nat) (vals : List V) (hl : refs.length = vals.length) (y : Nat) : ∀ (ord : List Nat) (s : Store V),
    (∃ i ∈ ord, refs[i]? = some y) →
    ∃ i ∈ ord, refs[i]? = some y ∧ vals[i]? = some (ord.foldl (assignComp refs vals) s y) := by
  intro ord
  induction ord with
  | nil => rintro s ⟨i, h, _⟩; cases h
  | cons i ord ih =>
    intro s h
    rw [List.foldl_cons]
    by_cases hr : ∃ j ∈ ord, refs[j]? = some y
    · obtain ⟨j, hj, h1, h2⟩ := ih (assignComp refs vals s i) hr
      exact ⟨j, List.mem_cons_of_mem _ hj, h1, h2⟩
    · obtain ⟨j, hj, hy⟩ := h
      rcases List.mem_cons.1 hj with rfl | hj
      · refine ⟨j, List.mem_cons_self, hy, ?_⟩
        rw [foldl_other refs vals y ord _ fun k hk e => hr ⟨k, hk, e⟩]
        have hlt : j < refs.length := (List.getElem?_eq_some_iff.1 hy).1
        have hv : vals[j]? = some (vals[j]'(hl ▸ hlt)) := List.getElem?_eq_getElem (hl ▸ hlt)
        rw [assignComp, hy, hv]
        simp only
        rw [upd_same]
      · exact absurd ⟨j, hj, hy⟩ hr

/-- C60: `make_ltuple(a1,...) = make_tuple(e1,...)` for any number of variables and any order of the component
assignments: every variable gets the value, before the assignment, of an expression at its position, and no other
variable changes. For distinct variables that is the value at its position. -/
theorem C60_tuple (ord : List Nat) (refs : List Nat) (hord : ∀ i, i ∈ ord ↔ i < refs.length) (es : List (Store V → V))
    (hl : refs.length = es.length) (s : Store V) :
    ∃ s', assignTuple ord (makeLtuple refs) (makeTuple es s) s = some s' ∧
      (∀ y, y ∉ refs → s' y = s y) ∧
      (∀ y ∈ refs, ∃ (i : Nat) (e : Store V → V), refs[i]? = some y ∧ es[i]? = some e ∧ s' y = e s) ∧
      (refs.Nodup → ∀ i (h : i < refs.length), s' refs[i] = (es[i]'(hl ▸ h)) s) := by
  have hl' : (makeLtuple refs).length = (makeTuple es s).length := by simp [makeLtuple, makeTuple, hl]
  have key : ∀ y ∈ refs, ∃ (i : Nat) (e : Store V → V), refs[i]? = some y ∧ es[i]? = some e ∧
      ord.foldl (assignComp refs (makeTuple es s)) s y = e s := by
    intro y hy
    obtain ⟨i, hi, e⟩ := List.mem_iff_getElem.1 hy
    obtain ⟨j, hj, h1, h2⟩ := foldl_last refs (makeTuple es s) hl' y ord s ⟨i, (hord i).2 hi, by rw [List.getElem?_eq_getElem hi, e]⟩
    have hjl := (hord j).1 hj
    refine ⟨j, es[j]'(hl ▸ hjl), h1, List.getElem?_eq_getElem (hl ▸ hjl), ?_⟩
    rw [makeTuple, List.getElem?_map, List.getElem?_eq_getElem (hl ▸ hjl)] at h2
    exact (Option.some.inj h2).symm
  refine ⟨_, if_pos hl', fun y hy => ?_, key, fun hd i hi => ?_⟩
  · refine foldl_other _ _ y ord s fun i _ e => hy ?_
    exact List.mem_of_getElem? e
  · obtain ⟨j, e, h1, h2, h3⟩ := key refs[i] (List.getElem_mem hi)
    obtain ⟨hj, h1⟩ := List.getElem?_eq_some_iff.1 h1
    have : j = i := (List.getElem_inj hd).1 h1
    subst this
    rw [List.getElem?_eq_getElem (hl ▸ hi)] at h2
    cases h2
    exact h3

/-- C60: sizes must match. -/
theorem C60_tuple_size (ord refs : List Nat) (vals : List V) (s : Store V) :
    assignTuple ord refs vals s = none ↔ refs.length ≠ vals.length := by
  unfold assignTuple; split <;> simp [*]

/-- C60: also for tuples of references. -/
theorem C60_tupleRefs_size (ord refs srcs : List Nat) (s : Store V) :
    assignTupleRefs ord refs srcs s = none ↔ refs.length ≠ srcs.length := by
  unfold assignTupleRefs; split <;> simp [*]

/-- C60: assigning a tuple of references is the same as assigning the values if no source is assigned to, in
whatever order the components are assigned. -/
theorem C60_tupleRefs (ord refs srcs : List Nat) (hl : refs.length = srcs.length) (s : Store V)
    (hd : ∀ q ∈ srcs, q ∉ refs) :
    assignTupleRefs ord refs srcs s = assignTuple ord refs (makeTuple (srcs.map fun q s => s q) s) s := by
  have hl2 : refs.length = (makeTuple (srcs.map fun q (s : Store V) => s q) s).length := by simp [makeTuple, hl]
  rw [assignTupleRefs, assignTuple, if_pos hl, if_pos hl2]
  congr 1
  have : ∀ (ord : List Nat) (s' : Store V), (∀ q ∈ srcs, s' q = s q) →
      ord.foldl (assignCompRef refs srcs) s' = ord.foldl (assignComp refs (makeTuple (srcs.map fun q s => s q) s)) s' := by
    intro ord
    induction ord with
    | nil => intro s' _; rfl
    | cons i ord ih =>
      intro s' hs
      have e : assignCompRef refs srcs s' i = assignComp refs (makeTuple (srcs.map fun q s => s q) s) s' i := by
        unfold assignCompRef assignComp
        cases hr : refs[i]? with
        | none => rfl
        | some r =>
          cases hq : srcs[i]? with
          | none => simp [makeTuple, hq]
          | some q =>
            have : (makeTuple (srcs.map fun q (s : Store V) => s q) s)[i]? = some (s q) := by simp [makeTuple, hq]
            rw [this]
            simp only
            rw [hs q (List.mem_of_getElem? hq)]
      rw [List.foldl_cons, List.foldl_cons, ← e]
      refine ih _ fun q hq => ?_
      rw [← hs q hq]
      unfold assignCompRef
      cases hr : refs[i]? with
      | none => rfl
      | some r =>
        cases srcs[i]? with
        | none => rfl
        | some q' =>
          refine upd_other _ _ ?_
          rintro rfl
          exact hd _ hq (List.mem_of_getElem? hr)
  exact this ord s fun _ _ => rfl

/-- C60: the selectors select the component of that position, and exist iff it does. -/
theorem C60_get (t : List V) :
    (∀ i, getFirst t = some i ↔ i = 0 ∧ 1 ≤ t.length) ∧ (∀ i, getSecond t = some i ↔ i = 1 ∧ 2 ≤ t.length) ∧
    (∀ i, getThird t = some i ↔ i = 2 ∧ 3 ≤ t.length) ∧ (∀ i, getFourth t = some i ↔ i = 3 ∧ 4 ≤ t.length) ∧
    (∀ i, getFifth t = some i ↔ i = 4 ∧ 5 ≤ t.length) := by
  refine ⟨?_, ?_, ?_, ?_, ?_⟩ <;> intro i <;>
    simp only [getFirst, getSecond, getThird, getFourth, getFifth, sel] <;> split <;> simp only [Option.some.injEq, reduceCtorEq, false_iff] <;> omega

example : (assignTuple [2, 0, 1] (makeLtuple [5, 6, 7]) (makeTuple [(· 6), (· 7), (· 5)] id) (id : Store Nat)).map
    (fun s => [s 5, s 6, s 7, s 8]) = some [6, 7, 5, 8] := by decide +kernel

end Helper.TupleC
