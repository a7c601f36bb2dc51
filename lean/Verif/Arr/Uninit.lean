import Verif.Arr.Lemmas
/-!
# Property C77: arrays constructed without initialising their elements (array.hpp:82-83)
-/
set_option linter.unusedSectionVars false
namespace Helper.Arr

variable {V : Type}

/-- array.hpp:83 `Array(n,Uninitialised)`. -/
def ctorUninit (sz x n : Nat) : M V Unit := alloc sz n >>> fun b => setObj x ⟨n, some b⟩

/-- The client constructs an element: `new (&x[i]) T(v)`. -/
def place (x i : Nat) (v : V) : M V Unit := getObj x >>> fun o => construct o.ptr i v

/-- The client constructs elements one after the other. -/
def places (x : Nat) : List (Nat × V) → M V Unit
  | [] => M.pure ()
  | p :: ps => place x p.1 p.2 >>> fun _ => places x ps

/-! Specification: the element at an index is the one constructed there last. -/

def last (ps : List (Nat × V)) (i : Nat) : Option V := (ps.reverse.find? fun p => p.1 == i).map (·.2)

theorem places_spec {x n : Nat} (o : Obj) (b : Nat) (ho : o = ⟨n, some b⟩) : ∀ (ps : List (Nat × V)) (cells : List (Option V)) (s : St V),
    (∀ p ∈ ps, p.1 < cells.length) → s.faults = [] → s.vars x = some o → s.blocks b = some cells →
    ∃ s' cells', places x ps s = (.ok (), s') ∧ s'.faults = [] ∧ s'.vars = s.vars ∧ s'.blocks b = some cells' ∧
      (∀ b', b' ≠ b → s'.blocks b' = s.blocks b') ∧
      cells'.length = cells.length ∧ ∀ i, i < cells.length → cells'[i]? = some ((last ps i).or (cells[i]?.join)) := by
  subst ho
  intro ps
  induction ps with
  | nil =>
    intro cells s _ hf hv hb
    refine ⟨s, cells, rfl, hf, rfl, hb, fun _ _ => rfl, rfl, fun i hi => ?_⟩
    simp [last, List.getElem?_eq_getElem hi]
  | cons p ps ih =>
    intro cells s hp hf hv hb
    have hp0 := hp p List.mem_cons_self
    have hc : cells[p.1]? = some cells[p.1] := List.getElem?_eq_getElem hp0
    obtain ⟨s1, h1, hf1, hv1, hb1, ho1⟩ : ∃ s1, place x p.1 p.2 s = (.ok (), s1) ∧ s1.faults = [] ∧ s1.vars = s.vars ∧
        s1.blocks b = some (cells.set p.1 (some p.2)) ∧ ∀ b', b' ≠ b → s1.blocks b' = s.blocks b' := by
      refine ⟨{ s with blocks := upd s.blocks b (some (cells.set p.1 (some p.2))), built := s.built + 1, lost := s.lost + (if cells[p.1].isSome then 1 else 0) }, ?_, hf, rfl, upd_same _ _ _, fun b' h => upd_ne _ _ h⟩
      simp [place, getObj, M.look, M.bind, hv, construct, cell_eq hb hc, tick, hf, store, hb]
    obtain ⟨s', cells', h2, hf2, hv2, hb2, ho2, hl2, hc2⟩ := ih (cells.set p.1 (some p.2)) s1
      (fun q hq => by rw [List.length_set]; exact hp q (List.mem_cons_of_mem _ hq)) hf1 (by rw [hv1]; exact hv) hb1
    refine ⟨s', cells', ?_, hf2, by rw [hv2, hv1], hb2, fun b' h => by rw [ho2 b' h, ho1 b' h], by rw [hl2, List.length_set], fun i hi => ?_⟩
    · rw [places, bind_ok h1]; exact h2
    · rw [hc2 i (by rw [List.length_set]; exact hi)]
      have e : last (p :: ps) i = (last ps i).or (if p.1 = i then some p.2 else none) := by
        simp only [last, List.reverse_cons, List.find?_append]
        cases h : ps.reverse.find? (fun q => q.1 == i) with
        | some q => simp
        | none =>
          by_cases hpi : p.1 = i <;> simp [hpi]
      rw [e]
      congr 1
      cases last ps i with
      | some v => simp
      | none =>
        by_cases hpi : p.1 = i
        · subst hpi; simp [hi]
        · simp [hpi]

theorem destroyLoop_all {b : Nat} : ∀ (n : Nat) (cells : List (Option V)) (s : St V), s.blocks b = some cells → n ≤ cells.length →
    ((∀ i, i < n → ∃ v, cells[i]? = some (some v)) →
      ∃ s', destroyLoop (some b) n s = (.ok (), s') ∧ Same b s s' ∧ s'.blocks b ≠ none) ∧
    ((∃ i, i < n ∧ cells[i]? = some none) → ∃ s', destroyLoop (some b) n s = (.ub .notAlive, s')) := by
  intro n
  induction n with
  | zero =>
    intro cells s hb _
    exact ⟨fun _ => ⟨s, rfl, Same.refl _ _, by rw [hb]; simp⟩, fun ⟨i, hi, _⟩ => absurd hi (Nat.not_lt_zero i)⟩
  | succ n ih =>
    intro cells s hb hn
    have hcn : cells[n]? = some cells[n] := List.getElem?_eq_getElem (by omega)
    cases hcell : cells[n] with
    | none =>
      rw [hcell] at hcn
      refine ⟨fun h => ?_, fun _ => ⟨s, ?_⟩⟩
      · obtain ⟨v, hv⟩ := h n (Nat.lt_succ_self n)
        rw [hcn] at hv
        cases hv
      · simp [destroyLoop, M.bind, destroyCell, cell_eq hb hcn]
    | some w =>
      rw [hcell] at hcn
      obtain ⟨s1, h1, hs1, _, hb1⟩ := destroyCell_eq hb hcn
      obtain ⟨i1, i2⟩ := ih (cells.set n none) s1 hb1 (by rw [List.length_set]; omega)
      have hlow : ∀ i, i < n → (cells.set n none)[i]? = cells[i]? := fun i hi => List.getElem?_set_ne (by omega)
      refine ⟨fun h => ?_, fun ⟨i, hi, hc⟩ => ?_⟩
      · obtain ⟨s', h2, hs2, hb2⟩ := i1 fun i hi => by rw [hlow i hi]; exact h i (by omega)
        exact ⟨s', by rw [destroyLoop, bind_ok h1]; exact h2, hs1.trans hs2, hb2⟩
      · have hin : i < n := by
          rcases Nat.lt_succ_iff_lt_or_eq.1 hi with h | h
          · exact h
          · subst h; rw [hcn] at hc; cases hc
        obtain ⟨s', h2⟩ := i2 ⟨i, hin, by rw [hlow i hin]; exact hc⟩
        exact ⟨s', by rw [destroyLoop, bind_ok h1]; exact h2⟩

/-- C77: after the construction of an array of `n` uninitialised elements and of elements at any indices, in any order and
possibly repeatedly, reading an index gives the element constructed there last, and is undefined if there is none;
destruction is defined iff every index has been constructed, and frees the storage. -/
theorem C77_uninitialised_partial {sz x n : Nat} (hsz : 0 < sz) (hn : Fits sz n) (ps : List (Nat × V)) (hp : ∀ p ∈ ps, p.1 < n) (dflt : V)
    (s : St V) (hf : s.faults = []) :
    ∃ s', (ctorUninit sz x n >>> fun _ => places x ps) s = (.ok (), s') ∧
      (∀ i, i < n → (index x i s').1 = match last ps i with | some v => .ok v | none => .ub .notAlive) ∧
      ((∀ i, i < n → ∃ p ∈ ps, p.1 = i) →
        ∃ s'', op sz dflt (.destroy x) s' = (.ok (), s'') ∧ s''.vars x = none ∧ s''.blocks s.next = none ∧
          ∀ b, b ≠ s.next → s''.blocks b = s.blocks b) ∧
      ((∃ i, i < n ∧ ∀ p ∈ ps, p.1 ≠ i) → (op sz dflt (.destroy x) s').1 = .ub .notAlive) := by
  rcases alloc_cases hsz hn s with ⟨s1, h1, hb1, hv1, hn1, _, hf1⟩ | ⟨e, s1, _, h, _⟩
  · obtain ⟨s', cells, h2, hf2, hv2, hb2, ho2, hl2, hc2⟩ := places_spec (x := x) (n := n) ⟨n, some s.next⟩ s.next rfl ps
      (List.replicate n none) { s1 with vars := upd s1.vars x (some ⟨n, some s.next⟩) } (by simpa using hp) (hf1 hf) (upd_same _ _ _)
      (by show s1.blocks s.next = _; rw [hb1]; simp)
    rw [List.length_replicate] at hl2 hc2
    have hvx : s'.vars x = some ⟨n, some s.next⟩ := by rw [hv2]; exact upd_same _ _ _
    have hcell : ∀ i, i < n → cells[i]? = some (last ps i) := by
      intro i hi
      rw [hc2 i hi]
      simp [hi]
    have hmem : ∀ i, (∃ p ∈ ps, p.1 = i) ↔ (last ps i).isSome := by
      intro i
      simp [last]
    refine ⟨s', ?_, fun i hi => ?_, fun h => ?_, fun ⟨i, hi, h⟩ => ?_⟩
    · simp only [ctorUninit]
      rw [bind_ok (by rw [bind_ok h1]; rfl)]
      exact h2
    · have := cell_eq hb2 (hcell i hi)
      simp only [index, getObj, M.look, M.bind, hvx, readCell, this]
      cases last ps i <;> rfl
    · obtain ⟨d1, _⟩ := destroyLoop_all n cells s' hb2 (by omega)
      obtain ⟨s2, h3, hs2, hnn⟩ := d1 fun i hi => by
        rw [hcell i hi]
        obtain ⟨v, hv⟩ := Option.isSome_iff_exists.1 ((hmem i).1 (h i hi))
        exact ⟨v, by rw [hv]⟩
      obtain ⟨c2, hc2⟩ := Option.ne_none_iff_exists'.1 hnn
      refine ⟨{ s2 with blocks := upd s2.blocks s.next none, lost := s2.lost + live c2, vars := upd s2.vars x none }, ?_, upd_same _ _ _, upd_same _ _ _, fun b hb => ?_⟩
      · simp [op, getObj, M.look, M.bind, hvx, h3, free, hc2]
      · show upd s2.blocks s.next none b = _
        rw [upd_ne _ _ hb, hs2.blocks b hb, ho2 b hb]
        show s1.blocks b = _
        rw [hb1, if_neg hb]
    · obtain ⟨_, d2⟩ := destroyLoop_all n cells s' hb2 (by omega)
      obtain ⟨s2, h3⟩ := d2 ⟨i, hi, by
        rw [hcell i hi]
        cases hl : last ps i with
        | none => rfl
        | some v =>
          obtain ⟨p, hp, he⟩ := (hmem i).2 (by rw [hl]; rfl)
          exact absurd he (h p hp)⟩
      simp [op, getObj, M.look, M.bind, hvx, h3]
  · exact absurd hf h

example : ((ctorUninit 8 0 2 >>> fun _ => places 0 [(1, 5), (0, 6), (1, 7)]) (St.init [] : St Nat)).1 = .ok () ∧
    (((ctorUninit 8 0 2 >>> fun _ => places 0 [(1, 5), (0, 6), (1, 7)]) >>> fun _ => index 0 1) (St.init [] : St Nat)).1 = .ok 7 ∧
    (((ctorUninit 8 0 2 >>> fun _ => places 0 [(1, 5)]) >>> fun _ => op 8 0 (.destroy 0)) (St.init [] : St Nat)).1 = .ub .notAlive := by
  decide +kernel

/-- C77: constructing an element where one is alive loses the old one, which is never destroyed. -/
theorem C77_lost {x i b : Nat} {v w : V} {o : Obj} {s : St V} {cells : List (Option V)} (hf : s.faults = []) (hv : s.vars x = some o)
    (ho : o.ptr = some b) (hb : s.blocks b = some cells) (hc : cells[i]? = some (some w)) :
    ∃ s', place x i v s = (.ok (), s') ∧ s'.lost = s.lost + 1 ∧ s'.destroyed = s.destroyed := by
  refine ⟨{ s with blocks := upd s.blocks b (some (cells.set i (some v))), built := s.built + 1, lost := s.lost + 1 }, ?_, rfl, rfl⟩
  simp [place, getObj, M.look, M.bind, hv, ho, construct, cell_eq hb hc, tick, hf, store, hb]

end Helper.Arr
