import Verif.StdOrd.Cmp
/-!
# Model of `std::set` (trusted model of the standard library)

A `std::set<T>` is the list of its elements in iteration order; an iterator is a position in it. The
functions model the contracts of [set] and [associative.reqmts].
-/
set_option linter.unusedSectionVars false
namespace Helper
namespace OSet

variable {α : Type u} [Cmp α]

/-- `std::set::find(t)`: the element equivalent to `t`, `none` for `end()`. -/
def find (t : α) (s : List α) : Option α := s.find? (fun x => Cmp.equiv x t)

/-- `std::set::insert(t)`: no effect if an equivalent element is present, otherwise `t` is placed at its
position in the order. -/
def insert (t : α) : List α → List α
  | [] => [t]
  | x :: s =>
    if Cmp.lt x t then x :: insert t s
    else if Cmp.lt t x then t :: x :: s
    else x :: s

/-- `std::set::erase(t)` for a key. -/
def erase (t : α) (s : List α) : List α := s.filter (fun x => !Cmp.equiv x t)

/-- `std::set(first,last)`: inserts the elements of a range one by one. -/
def ofList (l : List α) : List α := l.foldl (fun s x => insert x s) []

/-- Invariant of `std::set`: the elements are strictly increasing. -/
def Sorted (s : List α) : Prop := s.Pairwise (fun a b => Cmp.lt a b = true)

/-- An element equivalent to `t` is in `s`. -/
def Mem (t : α) (s : List α) : Prop := ∃ x ∈ s, Cmp.equiv x t = true

variable [StrictWeak α]

theorem find_isSome {t : α} {s : List α} : (find t s).isSome = true ↔ Mem t s := by simp [find, Mem]

theorem find_eq_none {t : α} {s : List α} : find t s = none ↔ ¬ Mem t s := by
  rw [← find_isSome]; simp

theorem mem_of_mem {t : α} {s : List α} (h : t ∈ s) : Mem t s := ⟨t, h, Cmp.equiv_refl t⟩

theorem not_mem_nil {t : α} : ¬ Mem t [] := by rintro ⟨_, h, _⟩; cases h

theorem Sorted.inj {s : List α} (h : Sorted s) {a b : α} (ha : a ∈ s) (hb : b ∈ s)
    (hab : Cmp.equiv a b = true) : a = b := by
  induction s with
  | nil => simp at ha
  | cons x t ih =>
    unfold Sorted at h; rw [List.pairwise_cons] at h
    rcases List.mem_cons.1 ha with rfl | ha' <;> rcases List.mem_cons.1 hb with rfl | hb'
    · rfl
    · have := Cmp.equiv_false_of_lt (h.1 b hb'); simp [this] at hab
    · have := Cmp.equiv_false_of_lt (h.1 a ha'); rw [Cmp.equiv_comm] at this; simp [this] at hab
    · exact ih h.2 ha' hb'

theorem insert_of_mem {t : α} {s : List α} (hs : Sorted s) (h : Mem t s) : insert t s = s := by
  induction s with
  | nil => exact absurd h not_mem_nil
  | cons x r ih =>
    unfold Sorted at hs; rw [List.pairwise_cons] at hs
    obtain ⟨e, he, hk⟩ := h
    unfold insert
    rcases List.mem_cons.1 he with rfl | he'
    · have := Cmp.equiv_iff.1 hk; simp [this.1, this.2]
    · have hlt : Cmp.lt x t = true := by
        rw [← Cmp.lt_of_equiv_right hk]; exact hs.1 e he'
      simp [hlt, ih hs.2 ⟨e, he', hk⟩]

theorem insert_perm {t : α} {s : List α} (h : ¬ Mem t s) : (insert t s).Perm (t :: s) := by
  induction s with
  | nil => simp [insert]
  | cons x r ih =>
    unfold insert
    split
    · exact ((ih fun ⟨e, he, hk⟩ => h ⟨e, List.mem_cons_of_mem _ he, hk⟩).cons _).trans (List.Perm.swap ..)
    · split
      · exact List.Perm.refl _
      · exact absurd ⟨x, List.mem_cons_self .., by simp [Cmp.equiv, *]⟩ h

theorem mem_insert_imp {t : α} {s : List α} {x : α} (h : x ∈ insert t s) : x = t ∨ x ∈ s := by
  induction s with
  | nil => simpa [insert] using h
  | cons y r ih =>
    unfold insert at h
    split at h
    · rcases List.mem_cons.1 h with rfl | h
      · simp
      · rcases ih h with h | h <;> simp [h]
    · split at h
      · simpa using h
      · exact Or.inr h

theorem sorted_insert {t : α} {s : List α} (h : Sorted s) : Sorted (insert t s) := by
  induction s with
  | nil => simp [insert, Sorted]
  | cons x r ih =>
    unfold Sorted at h; rw [List.pairwise_cons] at h
    unfold insert
    split
    · rename_i hlt
      refine List.Pairwise.cons ?_ (ih h.2)
      intro e he
      rcases mem_insert_imp he with rfl | he
      · exact hlt
      · exact h.1 e he
    · split
      · rename_i hlt
        refine List.Pairwise.cons ?_ (List.Pairwise.cons h.1 h.2)
        intro e he
        rcases List.mem_cons.1 he with rfl | he
        · exact hlt
        · exact StrictWeak.trans hlt (h.1 e he)
      · exact List.Pairwise.cons h.1 h.2

theorem mem_insert {t : α} {s : List α} (hs : Sorted s) {x : α} :
    x ∈ insert t s ↔ x ∈ s ∨ (x = t ∧ ¬ Mem t s) := by
  by_cases h : Mem t s
  · rw [insert_of_mem hs h]
    exact ⟨Or.inl, fun h' => h'.elim id (fun h' => absurd h h'.2)⟩
  · rw [(insert_perm h).mem_iff, List.mem_cons]
    exact ⟨fun h1 => h1.elim (fun h2 => Or.inr ⟨h2, h⟩) Or.inl,
      fun h1 => h1.elim Or.inr (fun h2 => Or.inl h2.1)⟩

theorem Mem_congr {t t' : α} {s : List α} (h : Cmp.equiv t t' = true) : Mem t s ↔ Mem t' s :=
  ⟨fun ⟨x, hx, hk⟩ => ⟨x, hx, Cmp.equiv_trans hk h⟩,
   fun ⟨x, hx, hk⟩ => ⟨x, hx, Cmp.equiv_trans hk (Cmp.equiv_symm h)⟩⟩

theorem Mem_insert {t u : α} {s : List α} (hs : Sorted s) :
    Mem u (insert t s) ↔ Mem u s ∨ Cmp.equiv t u = true := by
  constructor
  · rintro ⟨x, hx, hk⟩
    rcases mem_insert_imp hx with rfl | hx
    · exact Or.inr hk
    · exact Or.inl ⟨x, hx, hk⟩
  · rintro (⟨x, hx, hk⟩ | h)
    · exact ⟨x, (mem_insert hs).2 (Or.inl hx), hk⟩
    · by_cases hm : Mem t s
      · rw [insert_of_mem hs hm]; exact (Mem_congr h).1 hm
      · exact ⟨t, (mem_insert hs).2 (Or.inr ⟨rfl, hm⟩), h⟩

theorem sorted_sublist {s s' : List α} (h : Sorted s) (hs : s'.Sublist s) : Sorted s' :=
  List.Pairwise.sublist hs h

theorem mem_erase {t : α} {s : List α} {x : α} : x ∈ erase t s ↔ x ∈ s ∧ Cmp.equiv x t = false := by
  simp [erase]

theorem sorted_erase {t : α} {s : List α} (h : Sorted s) : Sorted (erase t s) :=
  sorted_sublist h List.filter_sublist

/-- A sorted list is determined by its members. -/
theorem eq_of_mem_iff {s s' : List α} (h : Sorted s) (h' : Sorted s')
    (hm : ∀ e, e ∈ s ↔ e ∈ s') : s = s' := by
  induction s generalizing s' with
  | nil =>
    cases s' with
    | nil => rfl
    | cons x t => have := (hm x).2 (by simp); simp at this
  | cons x t ih =>
    cases s' with
    | nil => have := (hm x).1 (by simp); simp at this
    | cons y t' =>
      unfold Sorted at h h'
      rw [List.pairwise_cons] at h h'
      have hxy : x = y := by
        have h1 := (hm x).1 (by simp)
        have h2 := (hm y).2 (by simp)
        rcases List.mem_cons.1 h1 with h1 | h1
        · exact h1
        · rcases List.mem_cons.1 h2 with h2 | h2
          · exact h2.symm
          · have := Cmp.lt_asymm (h.1 y h2); simp [h'.1 x h1] at this
      subst hxy
      congr 1
      refine ih h.2 h'.2 fun e => ⟨fun he => ?_, fun he => ?_⟩
      · rcases List.mem_cons.1 ((hm e).1 (List.mem_cons_of_mem _ he)) with rfl | h1
        · have := h.1 e he; simp at this
        · exact h1
      · rcases List.mem_cons.1 ((hm e).2 (List.mem_cons_of_mem _ he)) with rfl | h1
        · have := h'.1 e he; simp at this
        · exact h1

end OSet
end Helper
