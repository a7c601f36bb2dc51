import Verif.LRU.Spec
import Verif.Util
set_option linter.unusedSectionVars false
namespace Helper.LRU

variable {L : Type u} {V : Type v} [Cmp L] [StrictWeak L]

/-- The list of (label, position, value), positions counted from `k`. -/
def aged (k : Nat) : List (L × V) → List (L × Nat × V)
  | [] => []
  | p :: t => (p.1, k, p.2) :: aged (k + 1) t

def view (e : L × Entry V) : L × Nat × V := (e.1, e.2.age, e.2.value)

theorem aged_append (k : Nat) (a b : List (L × V)) :
    aged k (a ++ b) = aged k a ++ aged (k + a.length) b := by
  induction a generalizing k with
  | nil => simp [aged]
  | cons x t ih => simp only [List.cons_append, aged, ih, List.length_cons, Nat.add_right_comm k 1, Nat.add_assoc]

theorem length_aged (k : Nat) (a : List (L × V)) : (aged k a).length = a.length := by
  induction a generalizing k with
  | nil => rfl
  | cons x t ih => simp [aged, ih]

theorem mem_aged {k : Nat} {a : List (L × V)} {x : L × Nat × V} :
    x ∈ aged k a ↔ k ≤ x.2.1 ∧ a[x.2.1 - k]? = some (x.1, x.2.2) := by
  induction a generalizing k with
  | nil => simp [aged]
  | cons p t ih =>
    obtain ⟨xl, xn, xv⟩ := x
    simp only [aged, List.mem_cons, ih]
    constructor
    · rintro (h | ⟨h1, h2⟩)
      · cases h; simp
      · refine ⟨by omega, ?_⟩
        have : xn - k = xn - (k+1) + 1 := by omega
        rw [this]; simpa using h2
    · rintro ⟨h1, h2⟩
      by_cases hk : xn = k
      · left; subst hk; simp at h2; simp [h2]
      · right
        have : xn - k = xn - (k+1) + 1 := by omega
        rw [this] at h2
        exact ⟨by omega, by simpa using h2⟩

theorem aged_map_ge {k i : Nat} (h : i < k) (a : List (L × V)) :
    (aged k a).map (fun x => (x.1, (if x.2.1 < i then x.2.1 + 1 else if x.2.1 = i then 0 else x.2.1), x.2.2))
      = aged k a := by
  induction a generalizing k with
  | nil => rfl
  | cons p t ih =>
    simp only [aged, List.map_cons]
    rw [ih (by omega), if_neg (by omega), if_neg (by omega)]

theorem aged_map_lt {k i : Nat} (a : List (L × V)) (h : k + a.length ≤ i) :
    (aged k a).map (fun x => (x.1, (if x.2.1 < i then x.2.1 + 1 else if x.2.1 = i then 0 else x.2.1), x.2.2))
      = aged (k + 1) a := by
  induction a generalizing k with
  | nil => rfl
  | cons p t ih =>
    simp only [List.length_cons] at h
    simp only [aged, List.map_cons]
    rw [ih (by omega), if_pos (by omega)]

theorem aged_map_succ (k : Nat) (a : List (L × V)) :
    (aged k a).map (fun x => (x.1, x.2.1 + 1, x.2.2)) = aged (k + 1) a := by
  induction a generalizing k with
  | nil => rfl
  | cons p t ih => simp [aged, ih]

/-- Effect of the age updates of `get` on the item at position `a.length`. -/
theorem aged_touch (a b : List (L × V)) (p : L × V) :
    ((aged 0 (a ++ p :: b)).map (fun x => (x.1, (if x.2.1 < a.length then x.2.1 + 1
        else if x.2.1 = a.length then 0 else x.2.1), x.2.2))).Perm
      (aged 0 (p :: (a ++ b))) := by
  rw [aged_append, List.map_append]
  simp only [aged, List.map_cons]
  rw [aged_map_lt a (by omega), aged_map_ge (by omega), aged_append]
  simp only [Nat.zero_add, Nat.lt_irrefl, if_false, if_true]
  rw [show 1 + a.length = a.length + 1 by omega]
  exact List.perm_middle

/-- Representation relation between the model's cache and the recency list. -/
structure Rep (c : Cache L V) (s : Spec L V) : Prop where
  max : c.maximumSize = s.cap
  pos : 0 < s.cap
  len : s.items.length ≤ s.cap
  perm : (c.elements.map view).Perm (aged 0 s.items)
  sorted : OMap.Sorted c.elements
  nodes : (c.elements.map (fun e => e.2.node)).Nodup
  fresh : ∀ e ∈ c.elements, e.2.node < c.nextNode

theorem rep_empty {n : Nat} (h : 0 < n) : Rep (empty n : Cache L V) ⟨n, []⟩ := by
  refine ⟨rfl, h, by simp, by simp [empty, aged], by simp [empty, OMap.Sorted], by simp [empty], by simp [empty]⟩

namespace Rep
variable {c : Cache L V} {s : Spec L V}

theorem length_eq (h : Rep c s) : c.elements.length = s.items.length := by
  have := h.perm.length_eq; simpa [length_aged] using this

theorem mem_item (h : Rep c s) {e : L × Entry V} (he : e ∈ c.elements) :
    s.items[e.2.age]? = some (e.1, e.2.value) := by
  have h1 : view e ∈ aged 0 s.items := h.perm.mem_iff.1 (List.mem_map_of_mem he)
  simpa [view, mem_aged] using h1

theorem item_mem (h : Rep c s) {i : Nat} {p : L × V} (hi : s.items[i]? = some p) :
    ∃ e ∈ c.elements, e.1 = p.1 ∧ e.2.age = i ∧ e.2.value = p.2 := by
  have h1 : (p.1, i, p.2) ∈ aged 0 s.items := by simp [mem_aged, hi]
  rw [← h.perm.mem_iff, List.mem_map] at h1
  obtain ⟨e, he, hv⟩ := h1
  simp only [view, Prod.mk.injEq] at hv
  exact ⟨e, he, hv.1, hv.2.1, hv.2.2⟩

/-- The items' labels are pairwise inequivalent. -/
theorem items_pairwise (h : Rep c s) :
    s.items.Pairwise (fun p q => Cmp.equiv p.1 q.1 = false) := by
  have h1 : (c.elements.map view).Pairwise (fun a b => Cmp.equiv a.1 b.1 = false) := by
    rw [List.pairwise_map]
    exact List.Pairwise.imp (fun hab => Cmp.equiv_false_of_lt hab) h.sorted
  have h2 := (h.perm.pairwise_iff (fun hab => by rw [Cmp.equiv_comm]; exact hab)).1 h1
  have h3 : ∀ (k : Nat) (l : List (L × V)),
      (aged k l).Pairwise (fun a b => Cmp.equiv a.1 b.1 = false) →
      l.Pairwise (fun p q => Cmp.equiv p.1 q.1 = false) := by
    intro k l
    induction l generalizing k with
    | nil => simp
    | cons p t ih =>
      intro h
      simp only [aged, List.pairwise_cons] at h
      refine List.Pairwise.cons (fun q hq => ?_) (ih _ h.2)
      obtain ⟨i, hi⟩ := List.mem_iff_getElem?.1 hq
      exact h.1 (q.1, k + 1 + i, q.2) (by rw [mem_aged]; simp [hi])
  exact h3 0 _ h2

theorem item_unique (h : Rep c s) {i j : Nat} {p q : L × V} (hi : s.items[i]? = some p)
    (hj : s.items[j]? = some q) (hpq : Cmp.equiv p.1 q.1 = true) : i = j := by
  have hp := h.items_pairwise
  rw [List.pairwise_iff_getElem] at hp
  obtain ⟨hi1, hi2⟩ := List.getElem?_eq_some_iff.1 hi
  obtain ⟨hj1, hj2⟩ := List.getElem?_eq_some_iff.1 hj
  rcases Nat.lt_trichotomy i j with hlt | heq | hgt
  · have := hp i j hi1 hj1 hlt; rw [hi2, hj2, hpq] at this; simp at this
  · exact heq
  · have := hp j i hj1 hi1 hgt; rw [hi2, hj2, Cmp.equiv_comm, hpq] at this; simp at this

theorem age_inj (h : Rep c s) {e e' : L × Entry V} (he : e ∈ c.elements) (he' : e' ∈ c.elements)
    (ha : e.2.age = e'.2.age) : e = e' := by
  have h1 := h.mem_item he
  have h2 := h.mem_item he'
  rw [ha, h2] at h1
  have : e'.1 = e.1 := by
    have := Option.some.inj h1; simp only [Prod.mk.injEq] at this; exact this.1
  exact h.sorted.inj he he' (by rw [this]; simp)

theorem node_inj (h : Rep c s) {e e' : L × Entry V} (he : e ∈ c.elements) (he' : e' ∈ c.elements)
    (ha : e.2.node = e'.2.node) : e = e' := nodup_map_inj h.nodes he he' ha

theorem find_none (h : Rep c s) {l : L} :
    OMap.find l c.elements = none ↔ ∀ p ∈ s.items, Cmp.equiv p.1 l = false := by
  rw [OMap.find_eq_none]
  constructor
  · intro h1 p hp
    obtain ⟨i, hi⟩ := List.mem_iff_getElem?.1 hp
    obtain ⟨e, he, hl, _⟩ := h.item_mem hi
    rw [← hl]; exact h1 e he
  · intro h1 e he
    exact h1 (e.1, e.2.value) (List.mem_of_getElem? (h.mem_item he))

theorem has_eq (h : Rep c s) (l : L) : hasLabel c l = s.has l := by
  unfold hasLabel Spec.has
  cases hf : OMap.find l c.elements with
  | none =>
    rw [h.find_none] at hf
    symm; simpa using hf
  | some e =>
    symm
    have := OMap.find_some_mem hf
    simp only [Option.isSome_some, List.any_eq_true]
    exact ⟨(e.1, e.2.value), List.mem_of_getElem? (h.mem_item this.1), this.2⟩

/-- When the model finds an element, the spec's item list splits around it at its age. -/
theorem find_some (h : Rep c s) {l : L} {e : L × Entry V} (hf : OMap.find l c.elements = some e) :
    ∃ a b, s.items = a ++ (e.1, e.2.value) :: b ∧ a.length = e.2.age ∧
      (∀ q ∈ a ++ b, Cmp.equiv q.1 l = false) ∧ Cmp.equiv e.1 l = true := by
  have he := OMap.find_some_mem hf
  have hi := h.mem_item he.1
  obtain ⟨hlt, hget⟩ := List.getElem?_eq_some_iff.1 hi
  refine ⟨s.items.take e.2.age, s.items.drop (e.2.age + 1), ?_, by simp; omega, ?_, he.2⟩
  · rw [← hget]; simp
  · intro q hq
    have hp := h.items_pairwise
    have hs : s.items = s.items.take e.2.age ++ (e.1, e.2.value) :: s.items.drop (e.2.age + 1) := by
      rw [← hget]; simp
    rw [hs, List.pairwise_append] at hp
    have key : Cmp.equiv q.1 e.1 = false := by
      rcases List.mem_append.1 hq with hq | hq
      · exact hp.2.2 q hq (e.1, e.2.value) (by simp)
      · have := (List.pairwise_cons.1 hp.2.1).1 q hq
        rw [Cmp.equiv_comm]; exact this
    rw [← Cmp.equiv_of_equiv_right he.2]; exact key

end Rep

theorem spec_find_split {s : Spec L V} {l : L} {a b : List (L × V)} {p : L × V}
    (hs : s.items = a ++ p :: b) (hq : ∀ q ∈ a ++ b, Cmp.equiv q.1 l = false)
    (hp : Cmp.equiv p.1 l = true) :
    s.items.find? (fun p => Cmp.equiv p.1 l) = some p ∧
    s.items.filter (fun q => !Cmp.equiv q.1 l) = a ++ b ∧
    s.items.findIdx? (fun p => Cmp.equiv p.1 l) = some a.length := by
  have ha : ∀ q ∈ a, Cmp.equiv q.1 l = false := fun q h => hq q (List.mem_append_left _ h)
  have hb : ∀ q ∈ b, Cmp.equiv q.1 l = false := fun q h => hq q (List.mem_append_right _ h)
  refine ⟨?_, ?_, ?_⟩
  · rw [hs, List.find?_append]
    have : a.find? (fun p => Cmp.equiv p.1 l) = none := by simpa using ha
    simp [this, hp]
  · rw [hs, List.filter_append, List.filter_cons]
    simp only [hp, Bool.not_true]
    rw [List.filter_eq_self.2 (by simpa using ha), List.filter_eq_self.2 (by simpa using hb)]
    simp
  · rw [List.findIdx?_eq_some_iff_getElem]
    refine ⟨by simp [hs], by simp [hs, hp], ?_⟩
    intro j hj
    simp only [hs, List.getElem_append_left hj]
    simpa using ha _ (List.getElem_mem hj)

theorem spec_has_false {s : Spec L V} {l : L} :
    s.has l = false ↔ ∀ q ∈ s.items, Cmp.equiv q.1 l = false := by
  simp [Spec.has]

/-- `scan` returns the node of the last element of age `maxSize-1` and increments all ages. -/
theorem scan_snd (m : Nat) (es : List (L × Entry V)) (r : Option Nat) :
    (scan m es r).2 = incrementAll es := by
  induction es generalizing r with
  | nil => rfl
  | cons x t ih => obtain ⟨l, e⟩ := x; simp only [scan, ih]; simp [incrementAll]

theorem scan_fst_none {m : Nat} {es : List (L × Entry V)} {r : Option Nat}
    (h : ∀ e ∈ es, e.2.age ≠ m - 1) : (scan m es r).1 = r := by
  induction es generalizing r with
  | nil => rfl
  | cons x t ih =>
    obtain ⟨l, e⟩ := x
    have h1 : e.age ≠ m - 1 := h (l, e) (by simp)
    simp only [scan, h1, if_false]
    exact ih fun e he => h e (List.mem_cons_of_mem _ he)

theorem scan_fst_some {m : Nat} {es : List (L × Entry V)} {r : Option Nat} {e : L × Entry V}
    (he : e ∈ es) (ha : e.2.age = m - 1)
    (hu : ∀ e' ∈ es, e'.2.age = m - 1 → e'.2.node = e.2.node) :
    (scan m es r).1 = some e.2.node := by
  induction es generalizing r with
  | nil => simp at he
  | cons x t ih =>
    obtain ⟨l, e0⟩ := x
    simp only [scan]
    by_cases ht : ∃ e' ∈ t, e'.2.age = m - 1
    · obtain ⟨e', he', ha'⟩ := ht
      have : ∀ e'' ∈ t, e''.2.age = m - 1 → e''.2.node = e'.2.node := fun e'' h'' ha'' => by
        rw [hu e'' (List.mem_cons_of_mem _ h'') ha'', hu e' (List.mem_cons_of_mem _ he') ha']
      by_cases hx : e ∈ t
      · exact ih hx fun e' he' => hu e' (List.mem_cons_of_mem _ he')
      · have : (scan m t (if e0.age = m - 1 then some e0.node else r)).1 = some e'.2.node := by
          clear ih
          have aux : ∀ (t : List (L × Entry V)) (r : Option Nat),
              (∃ x ∈ t, x.2.age = m - 1) →
              (∀ e'' ∈ t, e''.2.age = m - 1 → e''.2.node = e'.2.node) →
              (scan m t r).1 = some e'.2.node := by
            intro t
            induction t with
            | nil => intro r h; simp at h
            | cons y t ih =>
              intro r hex hall
              obtain ⟨ly, ey⟩ := y
              simp only [scan]
              by_cases hy : ∃ x ∈ t, x.2.age = m - 1
              · exact ih _ hy fun e'' h'' => hall e'' (List.mem_cons_of_mem _ h'')
              · have hn : ∀ x ∈ t, x.2.age ≠ m - 1 := fun x hx h => hy ⟨x, hx, h⟩
                rw [scan_fst_none hn]
                obtain ⟨x, hx, hxa⟩ := hex
                rcases List.mem_cons.1 hx with rfl | hx
                · simp only at hxa
                  simp only [hxa, if_true]
                  exact congrArg some (hall (ly, ey) (by simp) hxa)
                · exact absurd hxa (hn x hx)
          exact aux t _ ⟨e', he', ha'⟩ this
        rw [this]
        exact congrArg some (hu e' (List.mem_cons_of_mem _ he') ha')
    · have hn : ∀ x ∈ t, x.2.age ≠ m - 1 := fun x hx h => ht ⟨x, hx, h⟩
      rw [scan_fst_none hn]
      rcases List.mem_cons.1 he with rfl | he
      · simp only at ha; simp [ha]
      · exact absurd ha (hn e he)

end Helper.LRU
