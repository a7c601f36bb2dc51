import Verif.SetC.Model
set_option linter.unusedSectionVars false
/-! Lemmas on the set functions. -/
namespace Helper.SetC
open OSet

variable {α : Type u} [Cmp α] [StrictWeak α]

theorem contains_iff {s : List α} {t : α} : contains s t = true ↔ Mem t s := find_isSome

theorem contains_false {s : List α} {t : α} : contains s t = false ↔ ¬ Mem t s := by
  rw [← contains_iff]; simp

theorem foldl_insert {l : List α} : ∀ {s : List α}, Sorted s →
    Sorted (l.foldl (fun s x => insert x s) s) ∧
    ∀ x, x ∈ l.foldl (fun s x => insert x s) s ↔ x ∈ s ∨ (¬ Mem x s ∧ ∃ a b, l = a ++ x :: b ∧ ∀ y ∈ a, Cmp.equiv y x = false) := by
  induction l with
  | nil => intro s hs; exact ⟨hs, fun x => ⟨Or.inl, fun h => h.elim id (by rintro ⟨_, a, b, h, _⟩; cases a <;> cases h)⟩⟩
  | cons y l ih =>
    intro s hs
    obtain ⟨h1, h2⟩ := ih (sorted_insert (t := y) hs)
    refine ⟨h1, fun x => ?_⟩
    rw [List.foldl_cons, h2, mem_insert hs, Mem_insert hs]
    constructor
    · rintro ((h | ⟨rfl, h⟩) | ⟨hn, a, b, rfl, ha⟩)
      · exact Or.inl h
      · exact Or.inr ⟨h, [], l, rfl, by simp⟩
      · refine Or.inr ⟨fun hm => hn (Or.inl hm), y :: a, b, rfl, fun z hz => ?_⟩
        rcases List.mem_cons.1 hz with rfl | hz
        · cases hc : Cmp.equiv z x
          · rfl
          · exact absurd (Or.inr hc) hn
        · exact ha z hz
    · rintro (h | ⟨hn, a, b, he, ha⟩)
      · exact Or.inl (Or.inl h)
      · cases a with
        | nil =>
          simp only [List.nil_append, List.cons.injEq] at he
          obtain ⟨rfl, rfl⟩ := he
          exact Or.inl (Or.inr ⟨rfl, hn⟩)
        | cons z a =>
          simp only [List.cons_append, List.cons.injEq] at he
          obtain ⟨rfl, rfl⟩ := he
          refine Or.inr ⟨?_, a, b, rfl, fun w hw => ha w (List.mem_cons_of_mem _ hw)⟩
          rintro (hm | hm)
          · exact hn hm
          · simp [ha y (List.mem_cons_self ..)] at hm

theorem sorted_nil : Sorted ([] : List α) := List.Pairwise.nil

theorem ofList_sorted (l : List α) : Sorted (OSet.ofList l) := (foldl_insert (l := l) sorted_nil).1

theorem mem_ofList {l : List α} {x : α} :
    x ∈ OSet.ofList l ↔ ∃ a b, l = a ++ x :: b ∧ ∀ y ∈ a, Cmp.equiv y x = false := by
  have := (foldl_insert (l := l) sorted_nil).2 x
  rw [OSet.ofList, this]
  exact ⟨fun h => h.elim (fun h => by cases h) (fun h => h.2), fun h => Or.inr ⟨not_mem_nil, h⟩⟩

theorem first_of_mem {l : List α} {t : α} : Mem t l → ∃ x a b, l = a ++ x :: b ∧ Cmp.equiv x t = true ∧
    ∀ y ∈ a, Cmp.equiv y x = false := by
  induction l with
  | nil => intro h; exact absurd h not_mem_nil
  | cons y l ih =>
    intro h
    by_cases hy : Cmp.equiv y t = true
    · exact ⟨y, [], l, rfl, hy, by simp⟩
    · have hl : Mem t l := by
        obtain ⟨x, hx, hk⟩ := h
        rcases List.mem_cons.1 hx with rfl | hx
        · exact absurd hk hy
        · exact ⟨x, hx, hk⟩
      obtain ⟨x, a, b, rfl, hk, ha⟩ := ih hl
      refine ⟨x, y :: a, b, rfl, hk, fun z hz => ?_⟩
      rcases List.mem_cons.1 hz with rfl | hz
      · cases hc : Cmp.equiv z x
        · rfl
        · exact absurd (Cmp.equiv_trans hc hk) hy
      · exact ha z hz

theorem Mem_ofList {l : List α} {t : α} : Mem t (OSet.ofList l) ↔ Mem t l := by
  constructor
  · rintro ⟨x, hx, hk⟩
    obtain ⟨a, b, rfl, _⟩ := mem_ofList.1 hx
    exact ⟨x, by simp, hk⟩
  · intro h
    obtain ⟨x, a, b, he, hk, ha⟩ := first_of_mem h
    exact ⟨x, mem_ofList.2 ⟨a, b, he, ha⟩, hk⟩

theorem ofList_of_sorted {s : List α} (hs : Sorted s) : OSet.ofList s = s := by
  refine eq_of_mem_iff (ofList_sorted s) hs fun x => ?_
  rw [mem_ofList]
  constructor
  · rintro ⟨a, b, rfl, _⟩; simp
  · intro hx
    obtain ⟨a, b, rfl⟩ := List.append_of_mem hx
    refine ⟨a, b, rfl, fun y hy => ?_⟩
    exact Cmp.equiv_false_of_lt ((List.pairwise_append.1 hs).2.2 y hy x (List.mem_cons_self ..))

theorem adjoinLoop_other (s2 : List α) : ∀ (fuel i : Nat) (cur : List α), s2.length - i < fuel →
    adjoinLoop (.other s2) fuel i cur = some ((s2.drop i).foldl (fun s x => insert x s) cur) := by
  intro fuel
  induction fuel with
  | zero => intro i cur h; omega
  | succ fuel ih =>
    intro i cur h
    rw [adjoinLoop]
    simp only [Arg.now]
    by_cases hi : i < s2.length
    · rw [List.getElem?_eq_getElem hi, List.drop_eq_getElem_cons hi, List.foldl_cons]
      exact ih (i + 1) _ (by omega)
    · rw [List.getElem?_eq_none (by omega), List.drop_of_length_le (by omega)]
      rfl

theorem adjoinLoop_self : ∀ (fuel i : Nat) (cur : List α), Sorted cur → cur.length - i < fuel →
    adjoinLoop .self fuel i cur = some cur := by
  intro fuel
  induction fuel with
  | zero => intro i cur _ h; omega
  | succ fuel ih =>
    intro i cur hs h
    rw [adjoinLoop]
    simp only [Arg.now]
    by_cases hi : i < cur.length
    · rw [List.getElem?_eq_getElem hi]
      simp only
      rw [insert_of_mem hs (mem_of_mem (List.getElem_mem hi))]
      exact ih (i + 1) cur hs (by omega)
    · rw [List.getElem?_eq_none (by omega)]

theorem drop_eraseIdx {l : List α} {i : Nat} (h : i < l.length) : (l.eraseIdx i).drop i = l.drop (i + 1) ∧
    (l.eraseIdx i).take i = l.take i := by
  rw [List.eraseIdx_eq_take_drop_succ]
  constructor
  · rw [List.drop_left' (by simp; omega)]
  · rw [List.take_left' (by simp; omega)]

theorem sweepLoop_other (p : List α → α → Bool) (s2 : List α) : ∀ (fuel i : Nat) (cur : List α), cur.length - i < fuel →
    sweepLoop p (.other s2) fuel i cur = some (cur.take i ++ (cur.drop i).filter (fun x => !p s2 x)) := by
  intro fuel
  induction fuel with
  | zero => intro i cur h; omega
  | succ fuel ih =>
    intro i cur h
    rw [sweepLoop]
    by_cases hi : i < cur.length
    · rw [List.getElem?_eq_getElem hi, List.drop_eq_getElem_cons hi, List.filter_cons]
      simp only
      by_cases hp : p ((Arg.other s2).now cur) cur[i] = true
      rotate_left
      · have hp' : p s2 cur[i] = false := Bool.eq_false_iff.2 hp
        rw [if_neg hp, ih (i + 1) cur (by omega), hp', List.take_succ_eq_append_getElem hi]
        rw [List.append_assoc]; rfl
      · have hp' : p s2 cur[i] = true := hp
        rw [if_pos hp, hp', ih i _ (by rw [List.length_eraseIdx_of_lt hi]; omega), (drop_eraseIdx hi).1, (drop_eraseIdx hi).2]
        simp
    · rw [List.getElem?_eq_none (by omega), List.drop_of_length_le (by omega), List.take_of_length_le (by omega)]
      simp

/-- Sweeping a set against itself when the test always holds. -/
theorem sweepLoop_self_true (p : List α → α → Bool) (hp : ∀ s x, x ∈ s → p s x = true) :
    ∀ (fuel i : Nat) (cur : List α), cur.length - i < fuel →
    sweepLoop p .self fuel i cur = some (cur.take i) := by
  intro fuel
  induction fuel with
  | zero => intro i cur h; omega
  | succ fuel ih =>
    intro i cur h
    rw [sweepLoop]
    by_cases hi : i < cur.length
    · rw [List.getElem?_eq_getElem hi]
      simp only
      rw [if_pos (hp (Arg.self.now cur) _ (List.getElem_mem hi)), ih i _ (by rw [List.length_eraseIdx_of_lt hi]; omega), (drop_eraseIdx hi).2]
    · rw [List.getElem?_eq_none (by omega), List.take_of_length_le (by omega)]

/-- Sweeping a set against itself when the test never holds. -/
theorem sweepLoop_self_false (p : List α → α → Bool) (hp : ∀ s x, x ∈ s → p s x = false) :
    ∀ (fuel i : Nat) (cur : List α), cur.length - i < fuel →
    sweepLoop p .self fuel i cur = some cur := by
  intro fuel
  induction fuel with
  | zero => intro i cur h; omega
  | succ fuel ih =>
    intro i cur h
    rw [sweepLoop]
    by_cases hi : i < cur.length
    · rw [List.getElem?_eq_getElem hi]
      simp only
      rw [if_neg (by rw [hp (Arg.self.now cur) _ (List.getElem_mem hi)]; simp), ih (i + 1) _ (by omega)]
    · rw [List.getElem?_eq_none (by omega)]

theorem removeElem_eq {s : List α} (hs : Sorted s) (t : α) : removeElem s t = OSet.erase t s := by
  induction s with
  | nil => rfl
  | cons x r ih =>
    have hr := (List.pairwise_cons.1 hs)
    unfold removeElem OSet.erase
    rw [List.findIdx?_cons, List.filter_cons]
    cases hx : Cmp.equiv x t
    · simp only [Bool.not_false, if_true]
      have := ih hr.2
      unfold removeElem OSet.erase at this
      rw [← this]
      cases List.findIdx? (fun x => Cmp.equiv x t) r <;> simp
    · simp only [Bool.not_true]
      simp only [if_true, List.eraseIdx_cons_zero]
      rw [if_neg (by simp)]
      symm
      rw [List.filter_eq_self]
      intro y hy
      have h1 := Cmp.equiv_false_of_lt (hr.1 y hy)
      cases h2 : Cmp.equiv y t
      · rfl
      · rw [Cmp.equiv_trans hx (Cmp.equiv_symm h2)] at h1; cases h1

theorem mem_removeList {l : List α} : ∀ {s : List α} {x : α}, x ∈ removeList s l ↔ x ∈ s ∧ ¬ Mem x l := by
  induction l with
  | nil => intro s x; simp [removeList, not_mem_nil]
  | cons y l ih =>
    intro s x
    rw [removeList, ih, mem_erase]
    constructor
    · rintro ⟨⟨h1, h2⟩, h3⟩
      refine ⟨h1, ?_⟩
      rintro ⟨z, hz, hk⟩
      rcases List.mem_cons.1 hz with rfl | hz
      · rw [Cmp.equiv_comm, hk] at h2; cases h2
      · exact h3 ⟨z, hz, hk⟩
    · rintro ⟨h1, h2⟩
      refine ⟨⟨h1, ?_⟩, fun ⟨z, hz, hk⟩ => h2 ⟨z, List.mem_cons_of_mem _ hz, hk⟩⟩
      cases hc : Cmp.equiv x y
      · rfl
      · exact absurd ⟨y, List.mem_cons_self .., by rw [Cmp.equiv_comm]; exact hc⟩ h2

theorem sorted_removeList {l : List α} : ∀ {s : List α}, Sorted s → Sorted (removeList s l) := by
  induction l with
  | nil => intro s h; exact h
  | cons y l ih => intro s h; exact ih (sorted_erase h)

theorem intersectionLoop_eq {s1 : List α} {l : List α} : ∀ {r : List α},
    intersectionLoop s1 l r = (l.filter (contains s1)).foldl (fun s x => insert x s) r := by
  induction l with
  | nil => intro r; rfl
  | cons x l ih =>
    intro r
    rw [intersectionLoop, ih, List.filter_cons]
    cases contains s1 x <;> rfl

theorem uniqueLoop_iff {l : List α} : ∀ {found : List α}, Sorted found →
    (uniqueLoop l found = true ↔ (∀ x ∈ l, ¬ Mem x found) ∧ l.Pairwise (fun a b => Cmp.equiv a b = false)) := by
  induction l with
  | nil => intro found _; simp [uniqueLoop]
  | cons x l ih =>
    intro found hs
    rw [uniqueLoop]
    cases hc : contains found x
    · rw [if_neg (by simp), ih (sorted_insert hs), List.pairwise_cons]
      rw [contains_false] at hc
      constructor
      · rintro ⟨h1, h2⟩
        refine ⟨?_, fun y hy => ?_, h2⟩
        · intro y hy
          rcases List.mem_cons.1 hy with rfl | hy
          · exact hc
          · exact fun hm => h1 y hy ((Mem_insert hs).2 (Or.inl hm))
        · cases he : Cmp.equiv x y
          · rfl
          · exact absurd ((Mem_insert hs).2 (Or.inr he)) (h1 y hy)
      · rintro ⟨h1, h2, h3⟩
        refine ⟨fun y hy hm => ?_, h3⟩
        rcases (Mem_insert hs).1 hm with hm | hm
        · exact h1 y (List.mem_cons_of_mem _ hy) hm
        · rw [h2 y hy] at hm; cases hm
    · rw [if_pos rfl]
      rw [contains_iff] at hc
      simp only [Bool.false_eq_true, false_iff]
      rintro ⟨h1, _⟩
      exact h1 x (List.mem_cons_self ..) hc

/-- The loop inserts, in order, each element that is equivalent to an earlier one. -/
theorem duplicateLoop_spec {l : List α} : ∀ {result found pre : List α}, Sorted result → Sorted found →
    (∀ t, Mem t found ↔ Mem t pre) →
    Sorted (duplicateLoop l result found) ∧
    ∀ t, Mem t (duplicateLoop l result found) ↔ Mem t result ∨ ∃ a x b, l = a ++ x :: b ∧ Cmp.equiv x t = true ∧ Mem t (pre ++ a) := by
  induction l with
  | nil =>
    intro result found pre hr hf hp
    exact ⟨hr, fun t => ⟨Or.inl, fun h => h.elim id (by rintro ⟨a, x, b, h, _⟩; cases a <;> cases h)⟩⟩
  | cons y l ih =>
    intro result found pre hr hf hp
    rw [duplicateLoop]
    have happ : ∀ {t : α} {u v : List α}, Mem t (u ++ v) ↔ Mem t u ∨ Mem t v := by
      intro t u v
      constructor
      · rintro ⟨x, hx, hk⟩
        rcases List.mem_append.1 hx with hx | hx
        · exact Or.inl ⟨x, hx, hk⟩
        · exact Or.inr ⟨x, hx, hk⟩
      · rintro (⟨x, hx, hk⟩ | ⟨x, hx, hk⟩)
        · exact ⟨x, List.mem_append_left _ hx, hk⟩
        · exact ⟨x, List.mem_append_right _ hx, hk⟩
    have hsplit : ∀ t, (∃ a x b, y :: l = a ++ x :: b ∧ Cmp.equiv x t = true ∧ Mem t (pre ++ a)) ↔
        (Cmp.equiv y t = true ∧ Mem t pre) ∨ ∃ a x b, l = a ++ x :: b ∧ Cmp.equiv x t = true ∧ Mem t ((pre ++ [y]) ++ a) := by
      intro t
      constructor
      · rintro ⟨a, x, b, he, hk, hm⟩
        cases a with
        | nil =>
          simp only [List.nil_append, List.cons.injEq] at he
          obtain ⟨rfl, rfl⟩ := he
          exact Or.inl ⟨hk, by simpa using hm⟩
        | cons z a =>
          simp only [List.cons_append, List.cons.injEq] at he
          obtain ⟨rfl, rfl⟩ := he
          exact Or.inr ⟨a, x, b, rfl, hk, by simpa using hm⟩
      · rintro (⟨hk, hm⟩ | ⟨a, x, b, rfl, hk, hm⟩)
        · exact ⟨[], y, l, rfl, hk, by simpa using hm⟩
        · exact ⟨y :: a, x, b, rfl, hk, by simpa using hm⟩
    have hsing : ∀ t, Mem t [y] ↔ Cmp.equiv y t = true := by
      intro t
      constructor
      · rintro ⟨x, hx, hk⟩; rw [List.mem_singleton.1 hx] at hk; exact hk
      · intro h; exact ⟨y, by simp, h⟩
    cases hc : contains found y
    · rw [if_neg (by simp)]
      rw [contains_false, hp] at hc
      obtain ⟨h1, h2⟩ := ih (result := result) (found := insert y found) (pre := pre ++ [y]) hr (sorted_insert hf)
        (fun t => by rw [Mem_insert hf, hp, happ, hsing])
      refine ⟨h1, fun t => ?_⟩
      rw [h2, hsplit]
      constructor
      · rintro (h | h)
        · exact Or.inl h
        · exact Or.inr (Or.inr h)
      · rintro (h | ⟨hk, hm⟩ | h)
        · exact Or.inl h
        · exact absurd ((Mem_congr (Cmp.equiv_symm hk)).1 hm) hc
        · exact Or.inr h
    · rw [if_pos rfl]
      rw [contains_iff, hp] at hc
      obtain ⟨h1, h2⟩ := ih (result := insert y result) (found := found) (pre := pre ++ [y]) (sorted_insert hr) hf
        (fun t => by
          rw [hp, happ, hsing]
          exact ⟨Or.inl, fun h => h.elim id (fun h => (Mem_congr h).1 hc)⟩)
      refine ⟨h1, fun t => ?_⟩
      rw [h2, hsplit, Mem_insert hr]
      constructor
      · rintro ((h | h) | h)
        · exact Or.inl h
        · exact Or.inr (Or.inl ⟨h, (Mem_congr h).1 hc⟩)
        · exact Or.inr (Or.inr h)
      · rintro (h | ⟨hk, _⟩ | h)
        · exact Or.inl (Or.inl h)
        · exact Or.inl (Or.inr hk)
        · exact Or.inr h

end Helper.SetC
