import Verif.MapC.Model
import Verif.SetC.Lemmas
set_option linter.unusedSectionVars false
/-!
# Properties C39–C41: maps

The specification is the relation `Bound m k v`; `OMap.Sorted m` (strictly increasing keys) is the
invariant of every `std::map`, kept by all operations.
-/
namespace Helper.MapC
open OMap

variable {κ : Type u} {ν : Type v} [Cmp κ] [StrictWeak κ]

/-- `k` is bound to `v`: there is an element with an equivalent key and that value. -/
def Bound (m : Map κ ν) (k : κ) (v : ν) : Prop := ∃ k', (k', v) ∈ m ∧ Cmp.equiv k' k = true

/-- `k` has a value. -/
def HasKey (m : Map κ ν) (k : κ) : Prop := ∃ v, Bound m k v

theorem find_bound {m : Map κ ν} (hs : Sorted m) {k : κ} {v : ν} : (∃ k', find k m = some (k', v)) ↔ Bound m k v := by
  constructor
  · rintro ⟨k', h⟩; exact ⟨k', find_some_mem h⟩
  · rintro ⟨k', h⟩; exact ⟨k', (find_eq_some_iff hs).2 h⟩

theorem find_none {m : Map κ ν} {k : κ} : find k m = none ↔ ¬ HasKey m k := by
  rw [find_eq_none]
  constructor
  · rintro h ⟨v, k', hm, hk⟩; rw [h _ hm] at hk; cases hk
  · intro h e he
    cases hk : Cmp.equiv e.1 k
    · rfl
    · exact absurd ⟨e.2, e.1, he, hk⟩ h

/-- The keys decide: a sorted map binds a key to at most one value. -/
theorem bound_unique {m : Map κ ν} (hs : Sorted m) {k : κ} {v w : ν} (h1 : Bound m k v) (h2 : Bound m k w) : v = w := by
  obtain ⟨a, ha, hak⟩ := h1
  obtain ⟨b, hb, hbk⟩ := h2
  have := hs.inj ha hb (Cmp.equiv_trans hak (Cmp.equiv_symm hbk))
  exact (Prod.mk.inj this).2

theorem bound_insert {m : Map κ ν} (hs : Sorted m) {k k' : κ} {v w : ν} :
    Bound (OMap.insert k v m) k' w ↔ Bound m k' w ∨ (Cmp.equiv k k' = true ∧ w = v ∧ ¬ HasKey m k') := by
  constructor
  · rintro ⟨a, ha, hk⟩
    rcases (mem_insert hs).1 ha with ha | ⟨ha, hn⟩
    · exact Or.inl ⟨a, ha, hk⟩
    · obtain ⟨rfl, rfl⟩ := Prod.mk.inj ha
      refine Or.inr ⟨hk, rfl, ?_⟩
      rintro ⟨u, b, hb, hbk⟩
      have := hn _ hb
      simp only at this
      rw [Cmp.equiv_trans hbk (Cmp.equiv_symm hk)] at this
      cases this
  · rintro (⟨a, ha, hk⟩ | ⟨hk, rfl, hn⟩)
    · exact ⟨a, (mem_insert hs).2 (Or.inl ha), hk⟩
    · refine ⟨k, (mem_insert hs).2 (Or.inr ⟨rfl, fun e he => ?_⟩), hk⟩
      cases hc : Cmp.equiv e.1 k
      · rfl
      · exact absurd ⟨e.2, e.1, he, Cmp.equiv_trans hc hk⟩ hn

theorem sorted_setValue {m : Map κ ν} (hs : Sorted m) {k : κ} {v : ν} : Sorted (setValue m k v) := by
  unfold setValue Sorted
  rw [List.pairwise_map]
  refine List.Pairwise.imp ?_ hs
  intro a b hab
  split <;> split <;> exact hab

theorem bound_setValue {m : Map κ ν} {k k' : κ} {v w : ν} :
    Bound (setValue m k v) k' w ↔ (Cmp.equiv k k' = true ∧ w = v ∧ HasKey m k') ∨ (Cmp.equiv k k' = false ∧ Bound m k' w) := by
  constructor
  · rintro ⟨a, ha, hk⟩
    obtain ⟨e, he, hea⟩ := List.mem_map.1 ha
    split at hea
    · rename_i hc
      obtain ⟨rfl, rfl⟩ := Prod.mk.inj hea
      exact Or.inl ⟨Cmp.equiv_trans (Cmp.equiv_symm hc) hk, rfl, e.2, e.1, he, hk⟩
    · rename_i hc
      subst hea
      refine Or.inr ⟨?_, a, he, hk⟩
      cases h : Cmp.equiv k k'
      · rfl
      · exact absurd (Cmp.equiv_trans hk (Cmp.equiv_symm h)) hc
  · rintro (⟨hk, rfl, u, a, ha, hak⟩ | ⟨hk, a, ha, hak⟩)
    · refine ⟨a, List.mem_map.2 ⟨(a, u), ha, ?_⟩, hak⟩
      rw [if_pos (Cmp.equiv_trans hak (Cmp.equiv_symm hk))]
    · refine ⟨a, List.mem_map.2 ⟨(a, w), ha, ?_⟩, hak⟩
      rw [if_neg]
      intro h
      rw [Cmp.equiv_trans (Cmp.equiv_symm h) hak] at hk
      cases hk

/-! ## C39 -/

/-- C39: `get`, `value` and const `operator[]` return the bound value, and throw iff there is none;
`has_key` tells presence. -/
theorem C39_get {m : Map κ ν} (hs : Sorted m) (k : κ) :
    (∀ v, get m k = .ok v ↔ Bound m k v) ∧ (get m k = .exn .runtimeError ↔ ¬ HasKey m k) ∧
    (hasKey m k = true ↔ HasKey m k) := by
  unfold get hasKey
  cases hf : find k m with
  | none =>
    have hn := find_none.1 hf
    refine ⟨fun v => ⟨fun h => (by cases h), fun h => absurd ⟨v, h⟩ hn⟩, ?_, ?_⟩
    · simp [hn]
    · simp [hn]
  | some e =>
    obtain ⟨a, u⟩ := e
    have hb := (find_bound hs).1 ⟨a, hf⟩
    have hk : HasKey m k := ⟨u, hb⟩
    refine ⟨fun v => ⟨fun h => ?_, fun h => ?_⟩, ?_, ?_⟩
    · cases h; exact hb
    · simp only; rw [bound_unique hs hb h]
    · simp [hk]
    · simp [hk]

/-- C39: all forms of `insert` bind an absent key and leave the value of a present key unchanged; the
free `insert` returns the value bound afterwards. -/
theorem C39_insert {m : Map κ ν} (hs : Sorted m) (k : κ) (v : ν) :
    Sorted (insert m k v) ∧
    (∀ k' w, Bound (insert m k v) k' w ↔ Bound m k' w ∨ (Cmp.equiv k k' = true ∧ w = v ∧ ¬ HasKey m k')) ∧
    (insertF m k v).2 = insert m k v ∧ ∃ w, (insertF m k v).1 = .ok w ∧ Bound (insert m k v) k w := by
  have hs' : Sorted (OMap.insert k v m) := sorted_insert hs
  refine ⟨hs', fun k' w => bound_insert hs, ?_, ?_⟩
  · unfold insertF
    simp only
    cases find k (OMap.insert k v m) <;> rfl
  · unfold insertF
    simp only
    cases hf : find k (OMap.insert k v m) with
    | none =>
      refine absurd ?_ (find_none.1 hf)
      by_cases h : HasKey m k
      · obtain ⟨w, hw⟩ := h
        exact ⟨w, (bound_insert hs).2 (Or.inl hw)⟩
      · exact ⟨v, (bound_insert hs).2 (Or.inr ⟨Cmp.equiv_refl k, rfl, h⟩)⟩
    | some e => exact ⟨e.2, rfl, (find_bound hs').1 ⟨e.1, hf⟩⟩

/-- C39: non-const `operator[]` gives the bound value; an absent key is first bound to `T()`. -/
theorem C39_index (dflt : ν) {m : Map κ ν} (hs : Sorted m) (k : κ) :
    Sorted (indexRead dflt m k).2 ∧ Bound (indexRead dflt m k).2 k (indexRead dflt m k).1 ∧
    (∀ k' w, Bound (indexRead dflt m k).2 k' w ↔ Bound m k' w ∨ (Cmp.equiv k k' = true ∧ w = dflt ∧ ¬ HasKey m k')) ∧
    (HasKey m k → (indexRead dflt m k).2 = m) := by
  unfold indexRead
  cases hf : find k m with
  | none =>
    have hn := find_none.1 hf
    refine ⟨sorted_insert hs, (bound_insert hs).2 (Or.inr ⟨Cmp.equiv_refl k, rfl, hn⟩), fun k' w => bound_insert hs,
      fun h => absurd h hn⟩
  | some e =>
    have hb := (find_bound hs).1 ⟨e.1, hf⟩
    refine ⟨hs, hb, fun k' w => ⟨Or.inl, ?_⟩, fun _ => rfl⟩
    rintro (h | ⟨hk, _, hn⟩)
    · exact h
    · obtain ⟨a, ha, hak⟩ := hb
      exact absurd ⟨e.2, a, ha, Cmp.equiv_trans hak hk⟩ hn

/-- C39: assignments through the references returned by `operator[]` and `value`. -/
theorem C39_assign (dflt : ν) {m : Map κ ν} (hs : Sorted m) (k : κ) (v : ν) :
    Sorted (indexAssign dflt m k v) ∧
    (∀ k' w, Bound (indexAssign dflt m k v) k' w ↔ (Cmp.equiv k k' = true ∧ w = v) ∨ (Cmp.equiv k k' = false ∧ Bound m k' w)) ∧
    (HasKey m k → valueAssign m k v = .ok (indexAssign dflt m k v)) ∧
    (¬ HasKey m k → valueAssign m k v = .exn .runtimeError) := by
  obtain ⟨h1, h2, h3, h4⟩ := C39_index dflt hs k
  refine ⟨sorted_setValue h1, fun k' w => ?_, fun h => ?_, fun h => ?_⟩
  · rw [indexAssign, bound_setValue, h3]
    constructor
    · rintro (⟨a, b, _⟩ | ⟨a, h | ⟨b, _⟩⟩)
      · exact Or.inl ⟨a, b⟩
      · exact Or.inr ⟨a, h⟩
      · rw [a] at b; cases b
    · rintro (⟨a, b⟩ | ⟨a, b⟩)
      · obtain ⟨c, hc, hck⟩ := h2
        exact Or.inl ⟨a, b, _, c, hc, Cmp.equiv_trans hck a⟩
      · exact Or.inr ⟨a, Or.inl b⟩
  · unfold valueAssign
    cases hf : find k m with
    | none => exact absurd h (find_none.1 hf)
    | some e => simp only; rw [indexAssign, h4 h]
  · unfold valueAssign
    rw [find_none.2 h]

example : get [(1, 'a'), (2, 'b')] 2 = .ok 'b' ∧ get [(1, 'a'), (2, 'b')] 3 = .exn .runtimeError ∧
    insert [(1, 'a'), (2, 'b')] 2 'c' = [(1, 'a'), (2, 'b')] ∧ insertF [(1, 'a')] 0 'c' = (.ok 'c', [(0, 'c'), (1, 'a')]) ∧
    indexAssign 'z' [(1, 'a')] 0 'c' = [(0, 'c'), (1, 'a')] := by decide
example : Sorted [(1, 'a'), (2, 'b')] := by simp [Sorted, Cmp.lt]

/-! ## C40 -/

theorem foldl_insert {l : Map κ ν} : ∀ {m : Map κ ν}, Sorted m → Sorted l →
    Sorted (l.foldl (fun m e => insert m e.1 e.2) m) ∧
    ∀ k v, Bound (l.foldl (fun m e => insert m e.1 e.2) m) k v ↔ Bound m k v ∨ (Bound l k v ∧ ¬ HasKey m k) := by
  induction l with
  | nil =>
    intro m hm _
    refine ⟨hm, fun k v => ⟨Or.inl, ?_⟩⟩
    rintro (h | ⟨⟨a, ha, _⟩, _⟩)
    · exact h
    · cases ha
  | cons e l ih =>
    intro m hm hl
    obtain ⟨k1, v1⟩ := e
    have hl' := List.pairwise_cons.1 hl
    obtain ⟨h1, h2⟩ := ih (m := insert m k1 v1) (sorted_insert hm) hl'.2
    refine ⟨h1, fun k v => ?_⟩
    have hnl : Cmp.equiv k1 k = true → ¬ HasKey l k := by
      rintro hk ⟨w, a, ha, hak⟩
      have := Cmp.equiv_false_of_lt (hl'.1 _ ha)
      simp only at this
      rw [Cmp.equiv_trans hk (Cmp.equiv_symm hak)] at this
      cases this
    have hbc : Bound ((k1, v1) :: l) k v ↔ (Cmp.equiv k1 k = true ∧ v = v1) ∨ Bound l k v := by
      constructor
      · rintro ⟨a, ha, hak⟩
        rcases List.mem_cons.1 ha with h | h
        · obtain ⟨rfl, rfl⟩ := Prod.mk.inj h
          exact Or.inl ⟨hak, rfl⟩
        · exact Or.inr ⟨a, h, hak⟩
      · rintro (⟨h, rfl⟩ | ⟨a, ha, hak⟩)
        · exact ⟨k1, List.mem_cons_self .., h⟩
        · exact ⟨a, List.mem_cons_of_mem _ ha, hak⟩
    have hki : HasKey (insert m k1 v1) k ↔ HasKey m k ∨ Cmp.equiv k1 k = true := by
      constructor
      · rintro ⟨w, hw⟩
        rcases (bound_insert hm).1 hw with h | ⟨h, _⟩
        · exact Or.inl ⟨w, h⟩
        · exact Or.inr h
      · rintro (⟨w, hw⟩ | h)
        · exact ⟨w, (bound_insert hm).2 (Or.inl hw)⟩
        · by_cases hk : HasKey m k
          · obtain ⟨w, hw⟩ := hk; exact ⟨w, (bound_insert hm).2 (Or.inl hw)⟩
          · exact ⟨v1, (bound_insert hm).2 (Or.inr ⟨h, rfl, hk⟩)⟩
    rw [List.foldl_cons, h2, hki, hbc]
    have hbi : Bound (insert m k1 v1) k v ↔ _ := bound_insert hm
    rw [hbi]
    constructor
    · rintro ((h | ⟨a, b, c⟩) | ⟨h, hn⟩)
      · exact Or.inl h
      · exact Or.inr ⟨Or.inl ⟨a, b⟩, c⟩
      · exact Or.inr ⟨Or.inr h, fun hk => hn (Or.inl hk)⟩
    · rintro (h | ⟨⟨a, b⟩ | h, hn⟩)
      · exact Or.inl (Or.inl h)
      · exact Or.inl (Or.inr ⟨a, b, hn⟩)
      · exact Or.inr ⟨h, fun hk => hk.elim hn (fun hk => hnl hk ⟨v, h⟩)⟩

theorem adjoinLoop_other (m2 : Map κ ν) : ∀ (fuel i : Nat) (cur : Map κ ν), m2.length - i < fuel →
    adjoinLoop (.other m2) fuel i cur = some ((m2.drop i).foldl (fun m e => insert m e.1 e.2) cur) := by
  intro fuel
  induction fuel with
  | zero => intro i cur h; omega
  | succ fuel ih =>
    intro i cur h
    rw [adjoinLoop]
    simp only [Arg.now]
    by_cases hi : i < m2.length
    · rw [List.getElem?_eq_getElem hi, List.drop_eq_getElem_cons hi, List.foldl_cons]
      exact ih (i + 1) _ (by omega)
    · rw [List.getElem?_eq_none (by omega), List.drop_of_length_le (by omega)]
      rfl

theorem adjoinLoop_self : ∀ (fuel i : Nat) (cur : Map κ ν), Sorted cur → cur.length - i < fuel →
    adjoinLoop .self fuel i cur = some cur := by
  intro fuel
  induction fuel with
  | zero => intro i cur _ h; omega
  | succ fuel ih =>
    intro i cur hs h
    rw [adjoinLoop]
    simp only [Arg.now]
    by_cases hi : i < cur.length
    · rw [List.getElem?_eq_getElem hi]
      simp only [insert]
      rw [insert_of_mem hs ⟨cur[i], List.getElem_mem hi, Cmp.equiv_refl _⟩]
      exact ih (i + 1) cur hs (by omega)
    · rw [List.getElem?_eq_none (by omega)]

/-- C40: after `m1.adjoin(m2)` (also `m1.adjoin(m1)`) and in `join(m1,m2)` a key is bound iff it was
bound in `m1` or `m2`, to `m1`'s value if there is one. `n` is the number of passes after which the
call has ended. -/
theorem C40_adjoin {m1 : Map κ ν} (h1 : Sorted m1) (a : Arg κ ν) (h2 : Sorted (a.now m1)) :
    ∃ r n, (∀ fuel, n ≤ fuel → adjoin fuel m1 a = some r) ∧ Sorted r ∧
      ∀ k v, Bound r k v ↔ Bound m1 k v ∨ (Bound (a.now m1) k v ∧ ¬ HasKey m1 k) := by
  cases a with
  | self =>
    refine ⟨m1, m1.length + 1, fun fuel hf => adjoinLoop_self fuel 0 m1 h1 (by omega), h1, fun k v => ⟨Or.inl, ?_⟩⟩
    rintro (h | ⟨h, _⟩) <;> exact h
  | other m2 =>
    obtain ⟨h3, h4⟩ := foldl_insert h1 h2
    exact ⟨_, m2.length + 1, fun fuel hf => adjoinLoop_other m2 fuel 0 m1 (by omega), h3, h4⟩

theorem C40_join {m1 m2 : Map κ ν} (h1 : Sorted m1) (h2 : Sorted m2) :
    ∃ r n, (∀ fuel, n ≤ fuel → join fuel m1 m2 = some r) ∧ Sorted r ∧
      ∀ k v, Bound r k v ↔ Bound m1 k v ∨ (Bound m2 k v ∧ ¬ HasKey m1 k) := C40_adjoin h1 (.other m2) h2

example : join 9 [(1, 'a'), (2, 'b')] [(0, 'x'), (2, 'y')] = some [(0, 'x'), (1, 'a'), (2, 'b')] := by decide

/-! ## C41 -/

theorem keysLoop_eq {m : Map κ ν} : ∀ {res : List κ}, keysLoop m res = (m.map Prod.fst).foldl (fun s x => OSet.insert x s) res := by
  induction m with
  | nil => intro res; rfl
  | cons e m ih => intro res; rw [keysLoop, ih]; rfl

theorem valuesLoop_eq {m : Map κ ν} : ∀ {res : List ν}, valuesLoop m res = res ++ m.map Prod.snd := by
  induction m with
  | nil => intro res; simp [valuesLoop]
  | cons e m ih => intro res; rw [valuesLoop, ih]; simp

/-- C41: `keys()` is the set of bound keys. -/
theorem C41_keys {m : Map κ ν} (hs : Sorted m) : keys m = m.map Prod.fst ∧ OSet.Sorted (keys m) ∧
    ∀ k, OSet.Mem k (keys m) ↔ HasKey m k := by
  have hsk : OSet.Sorted (m.map Prod.fst) := by
    unfold OSet.Sorted; rw [List.pairwise_map]; exact hs
  have he : keys m = m.map Prod.fst := by
    rw [keys, keysLoop_eq]; exact SetC.ofList_of_sorted hsk
  refine ⟨he, by rw [he]; exact hsk, fun k => ?_⟩
  rw [he]
  constructor
  · rintro ⟨x, hx, hk⟩
    obtain ⟨e, hem, rfl⟩ := List.mem_map.1 hx
    exact ⟨e.2, e.1, hem, hk⟩
  · rintro ⟨v, a, ha, hk⟩
    exact ⟨a, List.mem_map.2 ⟨_, ha, rfl⟩, hk⟩

/-- C41: `values()` lists the bound values in the order of their keys: its `i`-th value is bound to the
`i`-th key. -/
theorem C41_values {m : Map κ ν} (hs : Sorted m) : (values m).length = (keys m).length ∧
    ∀ i (h1 : i < (keys m).length) (h2 : i < (values m).length), Bound m (keys m)[i] (values m)[i] := by
  have hv : values m = m.map Prod.snd := by rw [values, valuesLoop_eq]; rfl
  have hk := (C41_keys hs).1
  refine ⟨by rw [hv, hk]; simp, fun i h1 h2 => ?_⟩
  simp only [hv, hk, List.getElem_map]
  have hi : i < m.length := by rw [hk] at h1; simpa using h1
  exact ⟨m[i].1, List.getElem_mem hi, Cmp.equiv_refl _⟩

theorem restrictLoop_spec (keys : List κ) {l : Map κ ν} : ∀ {r : Map κ ν}, Sorted r → Sorted l →
    restrictLoop keys l r = (l.filter (fun e => SetC.contains keys e.1)).foldl (fun m e => insert m e.1 e.2) r := by
  induction l with
  | nil => intro r _ _; rfl
  | cons e l ih =>
    intro r hr hl
    have hl' := List.pairwise_cons.1 hl
    rw [restrictLoop, List.filter_cons]
    cases SetC.contains keys e.1
    · exact ih hr hl'.2
    · exact ih (sorted_insert hr) hl'.2

/-- C41: `restrict_keys(m,s)` for a `Set` `s` keeps exactly the bindings whose key is in `s`. Missing for
the full claim: `s` may be a plain `std::set` (`C41_restrictKeys_refuted`). -/
theorem C41_restrictKeys_partial {m : Map κ ν} (hs : Sorted m) (s : List κ) :
    ∃ r, restrictKeys m true s = .ok r ∧ Sorted r ∧ ∀ k v, Bound r k v ↔ Bound m k v ∧ OSet.Mem k s := by
  have hf : Sorted (m.filter (fun e => SetC.contains s e.1)) := sorted_sublist hs List.filter_sublist
  obtain ⟨h1, h2⟩ := foldl_insert (m := ([] : Map κ ν)) List.Pairwise.nil hf
  refine ⟨restrictLoop s m [], rfl, ?_⟩
  rw [restrictLoop_spec s List.Pairwise.nil hs]
  refine ⟨h1, fun k v => ?_⟩
  rw [h2]
  constructor
  · rintro (⟨_, h, _⟩ | ⟨⟨a, ha, hk⟩, _⟩)
    · cases h
    · rw [List.mem_filter] at ha
      exact ⟨⟨a, ha.1, hk⟩, (OSet.Mem_congr hk).1 (SetC.contains_iff.1 ha.2)⟩
  · rintro ⟨⟨a, ha, hk⟩, hm⟩
    refine Or.inr ⟨⟨a, List.mem_filter.2 ⟨ha, SetC.contains_iff.2 ((OSet.Mem_congr hk).2 hm)⟩, hk⟩, ?_⟩
    rintro ⟨_, _, h, _⟩
    cases h

/-- C41 is false for a plain `std::set`: the downcast to `Set` is undefined. -/
theorem C41_restrictKeys_refuted (m : Map κ ν) (s : List κ) : restrictKeys m false s = .ub .badDowncast := rfl

/-- C41: `remove_keys(s)` removes exactly the bindings whose key is in `s`. -/
theorem C41_removeKeys {m : Map κ ν} (hs : Sorted m) (s : List κ) :
    Sorted (removeKeys m s) ∧ ∀ k v, Bound (removeKeys m s) k v ↔ Bound m k v ∧ ¬ OSet.Mem k s := by
  induction s generalizing m with
  | nil =>
    refine ⟨hs, fun k v => ⟨fun h => ⟨h, OSet.not_mem_nil⟩, fun h => h.1⟩⟩
  | cons x s ih =>
    obtain ⟨h1, h2⟩ := ih (m := OMap.erase x m) (sorted_erase hs)
    refine ⟨h1, fun k v => ?_⟩
    rw [removeKeys, h2]
    constructor
    · rintro ⟨⟨a, ha, hk⟩, hn⟩
      rw [mem_erase] at ha
      refine ⟨⟨a, ha.1, hk⟩, ?_⟩
      rintro ⟨y, hy, hyk⟩
      rcases List.mem_cons.1 hy with rfl | hy
      · have := ha.2
        simp only at this
        rw [Cmp.equiv_trans hk (Cmp.equiv_symm hyk)] at this
        cases this
      · exact hn ⟨y, hy, hyk⟩
    · rintro ⟨⟨a, ha, hk⟩, hn⟩
      refine ⟨⟨a, mem_erase.2 ⟨ha, ?_⟩, hk⟩, fun ⟨y, hy, hyk⟩ => hn ⟨y, List.mem_cons_of_mem _ hy, hyk⟩⟩
      simp only
      cases hc : Cmp.equiv a x
      · rfl
      · exact absurd ⟨x, List.mem_cons_self .., Cmp.equiv_trans (Cmp.equiv_symm hc) hk⟩ hn

/-- Constructing a map from a range (also another map) keeps the first of several equivalent keys and
gives a sorted map. -/
theorem ofList_sorted (l : List (κ × ν)) : Sorted (ofList l) := by
  have : ∀ (l : List (κ × ν)) (m : Map κ ν), Sorted m → Sorted (l.foldl (fun m e => OMap.insert e.1 e.2 m) m) := by
    intro l
    induction l with
    | nil => intro m h; exact h
    | cons e l ih => intro m h; exact ih _ (sorted_insert h)
  exact this l [] List.Pairwise.nil

example : keys [(1, 'a'), (2, 'b')] = [1, 2] ∧ values [(1, 'a'), (2, 'b')] = ['a', 'b'] ∧
    restrictKeys [(1, 'a'), (2, 'b')] true [2, 3] = .ok [(2, 'b')] ∧ removeKeys [(1, 'a'), (2, 'b')] [2, 3] = [(1, 'a')] := by decide

end Helper.MapC
