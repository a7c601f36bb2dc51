import Verif.StdOrd.Cmp
/-!
# Model of `std::map` (trusted model of the standard library)

A `std::map<K,V>` is the list of its elements in iteration order. The functions model the
contracts of [map], [associative.reqmts]; they are shared by the models of `LRUCache` and `Map`.
-/
set_option linter.unusedSectionVars false
namespace Helper
namespace OMap

variable {κ : Type u} {ν : Type v} [Cmp κ]

/-- `std::map::find(k)`: the element whose key is equivalent to `k`, `none` for `end()`. -/
def find (k : κ) (m : List (κ × ν)) : Option (κ × ν) := m.find? (fun e => Cmp.equiv e.1 k)

/-- `std::map::insert({k,v})`: no effect if an equivalent key is present, otherwise the new element
is placed at its position in the key order. -/
def insert (k : κ) (v : ν) : List (κ × ν) → List (κ × ν)
  | [] => [(k, v)]
  | (k', v') :: t =>
    if Cmp.lt k' k then (k', v') :: insert k v t
    else if Cmp.lt k k' then (k, v) :: (k', v') :: t
    else (k', v') :: t

/-- `std::map::erase(k)`: removes the element whose key is equivalent to `k`, if any. -/
def erase (k : κ) (m : List (κ × ν)) : List (κ × ν) := m.filter (fun e => !Cmp.equiv e.1 k)

/-- Invariant of `std::map`: the keys are strictly increasing. -/
def Sorted (m : List (κ × ν)) : Prop := m.Pairwise (fun a b => Cmp.lt a.1 b.1 = true)

/-- `std::map(first,last)`: inserts the elements of a range one by one. -/
def ofList (l : List (κ × ν)) : List (κ × ν) := l.foldl (fun m e => insert e.1 e.2 m) []

variable [StrictWeak κ]

theorem find_eq_none {k : κ} {m : List (κ × ν)} :
    find k m = none ↔ ∀ e ∈ m, Cmp.equiv e.1 k = false := by
  simp [find]

theorem find_some_mem {k : κ} {m : List (κ × ν)} {e} (h : find k m = some e) :
    e ∈ m ∧ Cmp.equiv e.1 k = true :=
  ⟨List.mem_of_find?_eq_some h, by simpa using List.find?_some h⟩

theorem find_isSome {k : κ} {m : List (κ × ν)} :
    (find k m).isSome = true ↔ ∃ e ∈ m, Cmp.equiv e.1 k = true := by
  simp [find]

/-- Keys of a sorted map are pairwise inequivalent. -/
theorem Sorted.inj {m : List (κ × ν)} (h : Sorted m) {a b : κ × ν} (ha : a ∈ m) (hb : b ∈ m)
    (hab : Cmp.equiv a.1 b.1 = true) : a = b := by
  induction m with
  | nil => simp at ha
  | cons x t ih =>
    unfold Sorted at h; rw [List.pairwise_cons] at h
    rcases List.mem_cons.1 ha with rfl | ha' <;> rcases List.mem_cons.1 hb with rfl | hb'
    · rfl
    · have := Cmp.equiv_false_of_lt (h.1 b hb'); simp [this] at hab
    · have := Cmp.equiv_false_of_lt (h.1 a ha'); rw [Cmp.equiv_comm] at this; simp [this] at hab
    · exact ih h.2 ha' hb'

theorem find_eq_some_iff {k : κ} {m : List (κ × ν)} (h : Sorted m) {e : κ × ν} :
    find k m = some e ↔ e ∈ m ∧ Cmp.equiv e.1 k = true := by
  constructor
  · exact find_some_mem
  · rintro ⟨he, hk⟩
    cases hf : find k m with
    | none => rw [find_eq_none] at hf; simp [hf e he] at hk
    | some e' =>
      have := find_some_mem hf
      rw [h.inj this.1 he (Cmp.equiv_trans this.2 (Cmp.equiv_symm hk))]

theorem find_congr {k k' : κ} (m : List (κ × ν)) (h : Cmp.equiv k k' = true) :
    find k m = find k' m := by
  unfold find; congr 1; funext e; exact Cmp.equiv_of_equiv_right h

theorem insert_of_mem {k : κ} {v : ν} {m : List (κ × ν)} (hs : Sorted m)
    (h : ∃ e ∈ m, Cmp.equiv e.1 k = true) : insert k v m = m := by
  induction m with
  | nil => simp at h
  | cons x t ih =>
    obtain ⟨k', v'⟩ := x
    unfold Sorted at hs; rw [List.pairwise_cons] at hs
    obtain ⟨e, he, hk⟩ := h
    unfold insert
    rcases List.mem_cons.1 he with rfl | he'
    · have := Cmp.equiv_iff.1 hk; simp [this.1, this.2]
    · have hlt : Cmp.lt k' k = true := by
        rw [← Cmp.lt_of_equiv_right hk]; exact hs.1 e he'
      simp [hlt, ih hs.2 ⟨e, he', hk⟩]

theorem insert_perm {k : κ} {v : ν} {m : List (κ × ν)}
    (h : ∀ e ∈ m, Cmp.equiv e.1 k = false) : (insert k v m).Perm ((k, v) :: m) := by
  induction m with
  | nil => simp [insert]
  | cons x t ih =>
    obtain ⟨k', v'⟩ := x
    have h1 := h (k', v') (by simp)
    unfold insert
    split
    · exact ((ih fun e he => h e (List.mem_cons_of_mem _ he)).cons _).trans (List.Perm.swap ..)
    · split
      · exact List.Perm.refl _
      · simp [Cmp.equiv, *] at h1

theorem mem_insert_imp {k : κ} {v : ν} {m : List (κ × ν)} {e} (h : e ∈ insert k v m) :
    e = (k, v) ∨ e ∈ m := by
  induction m with
  | nil => simpa [insert] using h
  | cons x t ih =>
    obtain ⟨k', v'⟩ := x
    unfold insert at h
    split at h
    · rcases List.mem_cons.1 h with rfl | h
      · simp
      · rcases ih h with h | h <;> simp [h]
    · split at h
      · simpa using h
      · exact Or.inr h

theorem sorted_insert {k : κ} {v : ν} {m : List (κ × ν)} (h : Sorted m) :
    Sorted (insert k v m) := by
  induction m with
  | nil => simp [insert, Sorted]
  | cons x t ih =>
    obtain ⟨k', v'⟩ := x
    unfold Sorted at h; rw [List.pairwise_cons] at h
    unfold insert
    split
    · rename_i hlt
      refine List.Pairwise.cons ?_ (ih h.2)
      intro e he
      rcases mem_insert_imp he with rfl | he
      · exact hlt
      · exact h.1 e he
    · split
      · rename_i hlt
        refine List.Pairwise.cons ?_ (List.Pairwise.cons h.1 h.2)
        intro e he
        rcases List.mem_cons.1 he with rfl | he
        · exact hlt
        · exact StrictWeak.trans hlt (h.1 e he)
      · exact List.Pairwise.cons h.1 h.2

theorem sorted_sublist {m m' : List (κ × ν)} (h : Sorted m) (hs : m'.Sublist m) : Sorted m' :=
  List.Pairwise.sublist hs h

theorem sorted_erase {k : κ} {m : List (κ × ν)} (h : Sorted m) : Sorted (erase k m) :=
  sorted_sublist h List.filter_sublist

theorem mem_insert {k : κ} {v : ν} {m : List (κ × ν)} (hs : Sorted m) {e} :
    e ∈ insert k v m ↔ e ∈ m ∨ (e = (k, v) ∧ ∀ e' ∈ m, Cmp.equiv e'.1 k = false) := by
  by_cases h : ∃ e ∈ m, Cmp.equiv e.1 k = true
  · rw [insert_of_mem hs h]
    constructor
    · exact Or.inl
    · rintro (h' | ⟨_, h'⟩)
      · exact h'
      · obtain ⟨e, he, hk⟩ := h; simp [h' e he] at hk
  · have h' : ∀ e ∈ m, Cmp.equiv e.1 k = false := by
      intro e he; cases hk : Cmp.equiv e.1 k
      · rfl
      · exact absurd ⟨e, he, hk⟩ h
    rw [(insert_perm h').mem_iff, List.mem_cons]
    exact ⟨fun h1 => h1.elim (fun h2 => Or.inr ⟨h2, h'⟩) Or.inl,
      fun h1 => h1.elim Or.inr (fun h2 => Or.inl h2.1)⟩

theorem find_insert {k k' : κ} {v : ν} {m : List (κ × ν)} (hs : Sorted m) :
    find k' (insert k v m) =
      if (find k' m).isSome then find k' m
      else if Cmp.equiv k k' then some (k, v) else none := by
  split
  · rename_i h
    obtain ⟨e, he⟩ := Option.isSome_iff_exists.1 h
    rw [he, find_eq_some_iff (sorted_insert hs), mem_insert hs]
    have := find_some_mem he
    exact ⟨Or.inl this.1, this.2⟩
  · rename_i h
    have hn : find k' m = none := by simpa using h
    rw [find_eq_none] at hn
    split
    · rename_i hk
      rw [find_eq_some_iff (sorted_insert hs), mem_insert hs]
      refine ⟨Or.inr ⟨rfl, fun e he => ?_⟩, hk⟩
      rw [Cmp.equiv_of_equiv_right hk]; exact hn e he
    · rename_i hk
      rw [find_eq_none]
      intro e he
      rcases mem_insert_imp he with rfl | he
      · simpa using hk
      · exact hn e he

theorem find_erase {k k' : κ} {m : List (κ × ν)} :
    find k' (erase k m) = if Cmp.equiv k k' then none else find k' m := by
  split
  · rename_i hk
    rw [find_eq_none]; intro e he
    simp only [erase, List.mem_filter, Bool.not_eq_true'] at he
    rw [← Cmp.equiv_of_equiv_right hk]; exact he.2
  · rename_i hk
    unfold find erase
    rw [List.find?_filter]
    congr 1; funext e
    cases h : Cmp.equiv e.1 k'
    · simp
    · cases h2 : Cmp.equiv e.1 k
      · simp
      · exact absurd (Cmp.equiv_trans (Cmp.equiv_symm h2) h) hk

theorem mem_erase {k : κ} {m : List (κ × ν)} {e} :
    e ∈ erase k m ↔ e ∈ m ∧ Cmp.equiv e.1 k = false := by
  simp [erase]

/-- Two sorted maps with the same lookups (up to the stored key) are equal when they have the same
elements. -/
theorem eq_of_mem_iff {m m' : List (κ × ν)} (h : Sorted m) (h' : Sorted m')
    (hm : ∀ e, e ∈ m ↔ e ∈ m') : m = m' := by
  induction m generalizing m' with
  | nil =>
    cases m' with
    | nil => rfl
    | cons x t => have := (hm x).2 (by simp); simp at this
  | cons x t ih =>
    cases m' with
    | nil => have := (hm x).1 (by simp); simp at this
    | cons y t' =>
      unfold Sorted at h h'
      rw [List.pairwise_cons] at h h'
      have hxy : x = y := by
        have h1 := (hm x).1 (by simp)
        have h2 := (hm y).2 (by simp)
        rcases List.mem_cons.1 h1 with h1 | h1
        · exact h1
        · rcases List.mem_cons.1 h2 with h2 | h2
          · exact h2.symm
          · have := Cmp.lt_asymm (h.1 y h2); simp [h'.1 x h1] at this
      subst hxy
      congr 1
      refine ih h.2 h'.2 fun e => ⟨fun he => ?_, fun he => ?_⟩
      · rcases List.mem_cons.1 ((hm e).1 (List.mem_cons_of_mem _ he)) with rfl | h1
        · have := h.1 e he; simp at this
        · exact h1
      · rcases List.mem_cons.1 ((hm e).2 (List.mem_cons_of_mem _ he)) with rfl | h1
        · have := h'.1 e he; simp at this
        · exact h1

end OMap
end Helper
