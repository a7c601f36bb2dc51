import Verif.LRU.History
/-!
# Properties C01–C07 of `LRUCache`

`run (empty n) calls` is a client program that makes the given calls on a cache of maximum size
`n`; its first component is the trace (newest event first), its second the final cache. Labels are
compared by an arbitrary strict weak order.
-/
set_option linter.unusedSectionVars false
namespace Helper.LRU

variable {L : Type u} {V : Type v} [Cmp L] [StrictWeak L]

/-! ## C01 -/

/-- C01: the size is the number of successful puts capped by the maximum size, which never
changes. -/
theorem C01_size {n : Nat} (hn : 0 < n) (calls : List (Call L V)) :
    currentSize (run (empty n) calls).2 = min n (putCount (run (empty n) calls).1) ∧
    (run (empty n) calls).2.maximumSize = n := by
  obtain ⟨s, h1, h2, h3⟩ := run_inv hn calls
  refine ⟨?_, by rw [h1.max, h3]⟩
  unfold currentSize
  rw [h1.length_eq, h2.count, h3]

/-- The two size queries report these numbers and do not change the cache. -/
theorem C01_queries (c : Cache L V) :
    call c .currentSize = (.ok (.num (currentSize c)), c) ∧
    call c .maximumSize = (.ok (.num c.maximumSize), c) := ⟨rfl, rfl⟩

/-- A program used in the examples: capacity 2, five successful uses, one failing call. -/
def demo : List (Call Nat Nat) :=
  [.put 1 10, .put 2 20, .get 1, .put 3 30, .get 2, .age 1]

example : currentSize (run (empty 2) demo).2 = 2 ∧ putCount (run (empty 2) demo).1 = 3 := by decide

/-! ## C02 -/

/-- What is common to both cases of a successful `put l v` leading from `c` to `c'`:
the labels present afterwards and their values, when the labels satisfying `gone` disappear. -/
def PutEffect (c c' : Cache L V) (l : L) (v : V) (gone : L → Prop) : Prop :=
  (∀ x, gone x → hasLabel c' x = false) ∧
  (∀ x, ¬ gone x → (hasLabel c' x = true ↔ hasLabel c x = true ∨ Cmp.equiv x l = true)) ∧
  (∀ x, Cmp.equiv x l = true → (call c' (.get x)).1 = .ok (.val v)) ∧
  (∀ x, ¬ gone x → hasLabel c x = true → (call c' (.get x)).1 = (call c (.get x)).1)

theorem spec_get (s : Spec L V) (x : L) : (s.call (.get x)).1 =
    match s.items.find? (fun p => Cmp.equiv p.1 x) with
    | none => .exn .runtimeError
    | some p => .ok (.val p.2) := by
  simp only [Spec.call]
  cases s.items.find? (fun p => Cmp.equiv p.1 x) <;> rfl

theorem put_notFull_effect {c : Cache L V} {s : Spec L V} (h : Rep c s) {l : L} {v : V}
    (hl : hasLabel c l = false) (hlt : currentSize c < c.maximumSize) :
    (call c (.put l v)).1 = .ok .unit ∧ PutEffect c (call c (.put l v)).2 l v (fun _ => False) := by
  have hr := call_refine h (.put l v)
  have hs : s.has l = false := by rw [← h.has_eq]; exact hl
  have e : s.call (.put l v) = (.ok .unit, { s with items := (l, v) :: s.items }) := by
    have hm := h.max
    have hlen := h.length_eq
    unfold currentSize at hlt
    simp only [Spec.call, hs]
    rw [List.take_of_length_le (by omega)]; rfl
  rw [e] at hr
  refine ⟨hr.1, fun _ h => h.elim, fun x _ => ?_, fun x hx => ?_, fun x _ hx => ?_⟩
  · rw [hr.2.has_eq, h.has_eq]
    simp only [Spec.has, List.any_cons, Bool.or_eq_true, Cmp.equiv_comm l x]
    exact Or.comm
  · rw [(call_refine hr.2 (.get x)).1, spec_get]
    simp [Cmp.equiv_comm l x, hx]
  · rw [(call_refine hr.2 (.get x)).1, (call_refine h (.get x)).1, spec_get, spec_get]
    have : Cmp.equiv l x = false := by
      rw [spec_has_false] at hs
      rw [h.has_eq] at hx
      simp only [Spec.has, List.any_eq_true] at hx
      obtain ⟨p, hp, hpx⟩ := hx
      rw [← Cmp.equiv_of_equiv_right hpx, Cmp.equiv_comm]; exact hs p hp
    simp [this]

theorem find_dropLast_of_ne {a : List (L × V)} {e : L × V} {x : L} (h : Cmp.equiv e.1 x = false) :
    (a ++ [e]).find? (fun p => Cmp.equiv p.1 x) = a.find? (fun p => Cmp.equiv p.1 x) := by
  rw [List.find?_append]; simp [h]

theorem put_full_effect {c : Cache L V} {s : Spec L V} (h : Rep c s) {l : L} {v : V}
    (hl : hasLabel c l = false) (hlt : ¬ currentSize c < c.maximumSize) :
    ∃ e ∈ c.elements, e.2.age = c.maximumSize - 1 ∧
      s.items = s.items.take (s.cap - 1) ++ [(e.1, e.2.value)] ∧
      (call c (.put l v)).1 = .ok .unit ∧
      PutEffect c (call c (.put l v)).2 l v (fun x => Cmp.equiv x e.1 = true) := by
  obtain ⟨e, he, hage, _, hsplit⟩ := oldest h hlt
  refine ⟨e, he, hage, hsplit, ?_⟩
  have hr := call_refine h (.put l v)
  have hs : s.has l = false := by rw [← h.has_eq]; exact hl
  have eq : s.call (.put l v) = (.ok .unit, { s with items := (l, v) :: s.items.take (s.cap - 1) }) := by
    simp [Spec.call, hs]
  rw [eq] at hr
  have hel : Cmp.equiv e.1 l = false := by
    rw [spec_has_false] at hs
    exact hs (e.1, e.2.value) (List.mem_of_getElem? (h.mem_item he))
  have hpw := h.items_pairwise
  rw [hsplit, List.pairwise_append] at hpw
  have hne : ∀ x, ¬ Cmp.equiv x e.1 = true → Cmp.equiv (e.1, e.2.value).1 x = false := by
    intro x hx
    rw [Cmp.equiv_comm]; simpa using hx
  refine ⟨hr.1, fun x hx => ?_, fun x hx => ?_, fun x hx => ?_, fun x hx hxc => ?_⟩
  · rw [hr.2.has_eq, spec_has_false]
    intro q hq
    rw [Cmp.equiv_of_equiv_right hx]
    rcases List.mem_cons.1 hq with rfl | hq
    · rw [Cmp.equiv_comm]; exact hel
    · exact hpw.2.2 q hq (e.1, e.2.value) (by simp)
  · rw [hr.2.has_eq, h.has_eq]
    have h1 : s.has x = (s.items.take (s.cap - 1)).any (fun p => Cmp.equiv p.1 x) := by
      unfold Spec.has
      conv => lhs; rw [hsplit]
      rw [List.any_append]
      simp [hne x hx]
    rw [h1]
    simp only [Spec.has, List.any_cons, Bool.or_eq_true, Cmp.equiv_comm l x]
    exact Or.comm
  · rw [(call_refine hr.2 (.get x)).1, spec_get]
    simp [Cmp.equiv_comm l x, hx]
  · rw [(call_refine hr.2 (.get x)).1, (call_refine h (.get x)).1, spec_get, spec_get]
    have : Cmp.equiv l x = false := by
      rw [spec_has_false] at hs
      rw [h.has_eq] at hxc
      simp only [Spec.has, List.any_eq_true] at hxc
      obtain ⟨p, hp, hpx⟩ := hxc
      rw [← Cmp.equiv_of_equiv_right hpx, Cmp.equiv_comm]; exact hs p hp
    have h2 : s.items.find? (fun p => Cmp.equiv p.1 x) =
        (s.items.take (s.cap - 1)).find? (fun p => Cmp.equiv p.1 x) := by
      conv => lhs; rw [hsplit]
      exact find_dropLast_of_ne (hne x hx)
    rw [h2]
    simp [this]

/-- C02, cache not full: a successful put removes nothing and leaves all values. -/
theorem C02_notFull {n : Nat} (hn : 0 < n) (calls : List (Call L V)) (l : L) (v : V)
    (hl : hasLabel (run (empty n) calls).2 l = false)
    (hroom : currentSize (run (empty n) calls).2 < n) :
    (call (run (empty n) calls).2 (.put l v)).1 = .ok .unit ∧
    PutEffect (run (empty n) calls).2 (call (run (empty n) calls).2 (.put l v)).2 l v
      (fun _ => False) := by
  obtain ⟨s, h1, h2, h3⟩ := run_inv hn calls
  exact put_notFull_effect h1 hl (by rw [h1.max, h3]; exact hroom)

/-- C02, cache full: the put removes exactly the present label whose last use is the oldest. -/
theorem C02_evictsLeastRecentlyUsed {n : Nat} (hn : 0 < n) (calls : List (Call L V)) (l : L) (v : V)
    (hl : hasLabel (run (empty n) calls).2 l = false)
    (hfull : currentSize (run (empty n) calls).2 = n) :
    ∃ victim, hasLabel (run (empty n) calls).2 victim = true ∧
      (∀ x, hasLabel (run (empty n) calls).2 x = true → Cmp.equiv x victim = false →
        lastUse (run (empty n) calls).1 victim < lastUse (run (empty n) calls).1 x) ∧
      (call (run (empty n) calls).2 (.put l v)).1 = .ok .unit ∧
      PutEffect (run (empty n) calls).2 (call (run (empty n) calls).2 (.put l v)).2 l v
        (fun x => Cmp.equiv x victim = true) := by
  obtain ⟨s, h1, h2, h3⟩ := run_inv hn calls
  obtain ⟨e, he, hage, hsplit, hok, heff⟩ :=
    put_full_effect (v := v) h1 hl (by rw [h1.max, h3, hfull]; omega)
  have hpw := h2.uses
  rw [hsplit, List.pairwise_append] at hpw
  refine ⟨e.1, ?_, fun x hx hxe => ?_, hok, heff⟩
  · rw [h1.has_eq]; unfold Spec.has
    rw [List.any_eq_true]
    exact ⟨(e.1, e.2.value), List.mem_of_getElem? (h1.mem_item he), by simp⟩
  · rw [h1.has_eq] at hx
    unfold Spec.has at hx
    rw [List.any_eq_true] at hx
    obtain ⟨p, hp, hpx⟩ := hx
    rw [hsplit] at hp
    rcases List.mem_append.1 hp with hp | hp
    · have := hpw.2.2 p hp (e.1, e.2.value) (by simp)
      rw [lastUse_congr _ hpx] at this; exact this
    · simp at hp; subst hp
      rw [Cmp.equiv_comm] at hpx; simp [hpx] at hxe

/-- C02: queries do not count as uses. -/
theorem C02_queriesAreNotUses (t : List (Event L V)) (l : L) (r : Res (Out V)) (x : L) :
    lastUse ((.hasLabel l, r) :: t) x = lastUse t x ∧ lastUse ((.age l, r) :: t) x = lastUse t x :=
  ⟨rfl, rfl⟩

/-- In the demo the cache is full, 3 is put after 1 was touched, so 2 is evicted; then `get 2`
fails. -/
example : hasLabel (run (empty 2) demo).2 2 = false ∧ hasLabel (run (empty 2) demo).2 1 = true ∧
    currentSize (run (empty 2) (demo.take 3)).2 = 2 ∧
    hasLabel (run (empty 2) (demo.take 3)).2 3 = false ∧
    lastUse (run (empty 2) (demo.take 3)).1 2 = 2 ∧
    lastUse (run (empty 2) (demo.take 3)).1 1 = 3 := by decide
/-- The cache is not full after one put. -/
example : currentSize (run (empty 2) (demo.take 1)).2 < 2 ∧
    hasLabel (run (empty 2) (demo.take 1)).2 2 = false := by decide

/-! ## C03 -/

theorem rep_lists {c : Cache L V} {s : Spec L V} (h : Rep c s) :
    Lists c (s.items.map Prod.fst) := by
  refine ⟨?_, fun x => ?_⟩
  · rw [List.pairwise_map]; exact h.items_pairwise
  · rw [h.has_eq]
    simp only [Spec.has, List.any_eq_true, List.mem_map]
    constructor
    · rintro ⟨p, hp, hx⟩; exact ⟨p.1, ⟨p, hp, rfl⟩, hx⟩
    · rintro ⟨_, ⟨p, hp, rfl⟩, hx⟩; exact ⟨p, hp, hx⟩

theorem lists_perm {c : Cache L V} {P Q : List L} (hP : Lists c P) (hQ : Lists c Q)
    {α : Type w} (f : L → α) (hf : ∀ a b, Cmp.equiv a b = true → f a = f b) :
    (P.map f).Perm (Q.map f) :=
  perm_map_of_classes f hf hP.1 hQ.1 fun x => (hP.2 x).symm.trans (hQ.2 x)

theorem age_congr (c : Cache L V) {a b : L} (h : Cmp.equiv a b = true) : age c a = age c b := by
  unfold age OMap.find
  simp only [Cmp.equiv_of_equiv_right h]

theorem items_age {c : Cache L V} {s : Spec L V} (h : Rep c s) {i : Nat} {p : L × V}
    (hi : s.items[i]? = some p) : age c p.1 = .ok i := by
  obtain ⟨e, he, hl, ha, _⟩ := h.item_mem hi
  unfold age
  have : OMap.find p.1 c.elements = some e :=
    (OMap.find_eq_some_iff h.sorted).2 ⟨he, by rw [hl]; simp⟩
  rw [this, ← ha]

theorem items_ages {c : Cache L V} {s : Spec L V} (h : Rep c s) :
    (s.items.map Prod.fst).map (age c) = (List.range s.items.length).map .ok := by
  apply List.ext_getElem
  · simp
  · intro i h1 h2
    simp only [List.getElem_map, List.getElem_range]
    exact items_age h (List.getElem?_eq_getElem (by simpa using h1))

theorem pairwise_count {α : Type u} (f : α → Nat) (a b : List α) (p : α)
    (h : (a ++ p :: b).Pairwise (fun x y => f y < f x)) :
    (a ++ p :: b).countP (fun x => decide (f p < f x)) = a.length := by
  rw [List.pairwise_append, List.pairwise_cons] at h
  rw [List.countP_append, List.countP_cons]
  have h1 : a.countP (fun x => decide (f p < f x)) = a.length := by
    rw [List.countP_eq_length]; intro x hx; simpa using h.2.2 x hx p (by simp)
  have h2 : b.countP (fun x => decide (f p < f x)) = 0 := by
    rw [List.countP_eq_zero]; intro x hx
    have := h.2.1.1 x hx
    simp; omega
  simp [h1, h2]

/-- There is a list of the present labels. -/
theorem C03_lists_exists {n : Nat} (hn : 0 < n) (calls : List (Call L V)) :
    ∃ P, Lists (run (empty n) calls).2 P := by
  obtain ⟨s, h1, _, _⟩ := run_inv hn calls
  exact ⟨_, rep_lists h1⟩

/-- C03: the age of a present label is the number of present labels used more recently, whatever
list `P` of the present labels is used to count them. -/
theorem C03_age {n : Nat} (hn : 0 < n) (calls : List (Call L V)) {P : List L}
    (hP : Lists (run (empty n) calls).2 P) {l : L}
    (hl : hasLabel (run (empty n) calls).2 l = true) :
    age (run (empty n) calls).2 l =
      .ok (P.countP fun x => decide (lastUse (run (empty n) calls).1 l <
        lastUse (run (empty n) calls).1 x)) := by
  obtain ⟨s, h1, h2, _⟩ := run_inv hn calls
  obtain ⟨q, hq, hql⟩ := (rep_lists h1).2 l |>.1 hl
  obtain ⟨p, hp, rfl⟩ := List.mem_map.1 hq
  obtain ⟨a, b, hs⟩ := List.append_of_mem hp
  have hperm := lists_perm hP (rep_lists h1) (lastUse (run (empty n) calls).1)
    fun a b h => lastUse_congr _ h
  have hcount : (P.countP fun x => decide (lastUse (run (empty n) calls).1 l <
        lastUse (run (empty n) calls).1 x)) =
      (P.map (lastUse (run (empty n) calls).1)).countP
        (fun u => decide (lastUse (run (empty n) calls).1 p.1 < u)) := by
    rw [List.countP_map, lastUse_congr _ hql]; rfl
  rw [hcount, hperm.countP_eq, List.countP_map, List.countP_map, hs]
  have := pairwise_count (fun x : L × V => lastUse (run (empty n) calls).1 x.1) a b p
    (by rw [← hs]; exact h2.uses)
  show _ = Res.ok ((a ++ p :: b).countP (fun x : L × V =>
    decide (lastUse (run (empty n) calls).1 p.1 < lastUse (run (empty n) calls).1 x.1)))
  rw [this, ← age_congr _ hql]
  exact items_age h1 (by rw [hs]; simp)

/-- C03: the ages of the present labels are 0, …, current_size()-1, each exactly once. -/
theorem C03_ages_permutation {n : Nat} (hn : 0 < n) (calls : List (Call L V)) {P : List L}
    (hP : Lists (run (empty n) calls).2 P) :
    (P.map (age (run (empty n) calls).2)).Perm
      ((List.range (currentSize (run (empty n) calls).2)).map .ok) := by
  obtain ⟨s, h1, h2, _⟩ := run_inv hn calls
  have := lists_perm hP (rep_lists h1) (age (run (empty n) calls).2) (fun a b h => age_congr _ h)
  rw [items_ages h1] at this
  unfold currentSize
  rw [h1.length_eq]; exact this

/-- C03: a label has age 0 right after a successful `get` or `put` of it. -/
theorem C03_justUsed {n : Nat} (hn : 0 < n) (calls : List (Call L V)) (cl : Call L V) (l : L)
    (hu : usedLabel (cl, (call (run (empty n) calls).2 cl).1) = some l) :
    age (call (run (empty n) calls).2 cl).2 l = .ok 0 := by
  obtain ⟨s, h1, h2, _⟩ := run_inv hn calls
  have hr := call_refine h1 cl
  cases cl with
  | get k =>
    rw [hr.1] at hu
    revert hu hr
    simp only [Spec.call]
    cases hf : s.items.find? (fun p => Cmp.equiv p.1 k) with
    | none => intro hu; simp [usedLabel] at hu
    | some p =>
      intro hu hr
      simp only [usedLabel, Option.some.injEq] at hu
      subst hu
      have hpk : Cmp.equiv p.1 k = true := by simpa using List.find?_some hf
      rw [← age_congr _ hpk]
      exact items_age hr.2 (by simp)
  | put k v =>
    rw [hr.1] at hu
    revert hu hr
    simp only [Spec.call]
    cases hf : s.has k with
    | true => intro hu; simp [usedLabel] at hu
    | false =>
      intro hu hr
      simp only [usedLabel, Option.some.injEq, Bool.false_eq_true, if_false] at hu
      subst hu
      simp only [Bool.false_eq_true, if_false] at hr
      exact items_age (p := (k, v)) hr.2 (by simp)
  | hasLabel _ => simp [usedLabel] at hu
  | age _ => simp [usedLabel] at hu
  | currentSize => simp [usedLabel] at hu
  | maximumSize => simp [usedLabel] at hu

/-- C03: ages stay below the maximum size, so `age++` never wraps (it is even at most
`maximum_size` inside `put`). -/
theorem C03_age_lt {n : Nat} (hn : 0 < n) (calls : List (Call L V)) :
    ∀ e ∈ (run (empty n) calls).2.elements, e.2.age < n := by
  obtain ⟨s, h1, h2, h3⟩ := run_inv hn calls
  intro e he
  have := h1.mem_item he
  obtain ⟨h, _⟩ := List.getElem?_eq_some_iff.1 this
  have := h1.len; omega

example : Lists (run (empty 2) demo).2 [3, 1] ∧ age (run (empty 2) demo).2 1 = .ok 1 ∧
    lastUse (run (empty 2) demo).1 1 = 3 ∧ lastUse (run (empty 2) demo).1 3 = 4 := by
  refine ⟨⟨by decide, fun x => ?_⟩, by decide⟩
  have h : (run (empty 2) demo).2.elements.map Prod.fst = [1, 3] := by decide
  have : hasLabel (run (empty 2) demo).2 x =
      ((run (empty 2) demo).2.elements.map Prod.fst).any (fun p => Cmp.equiv p x) := by
    unfold hasLabel OMap.find
    rw [List.any_map]
    cases h : (run (empty 2) demo).2.elements.find? (fun e => Cmp.equiv e.1 x)
    · symm; rw [List.find?_eq_none] at h
      rw [Option.isSome_none, List.any_eq_false]; exact h
    · symm; rw [Option.isSome_some, List.any_eq_true]
      exact ⟨_, List.mem_of_find?_eq_some h, List.find?_some h⟩
  rw [this, h]; simp [or_comm]
example : usedLabel (Call.get 1, (call (run (empty 2) (demo.take 2)).2 (.get 1)).1) = some 1 := by
  decide

/-! ## C04 -/

/-- C04: a label is present iff it has been used and fewer than `n` distinct labels have been used
since its last use. -/
theorem C04_present {n : Nat} (hn : 0 < n) (calls : List (Call L V)) (l : L) :
    hasLabel (run (empty n) calls).2 l = true ↔
      0 < lastUse (run (empty n) calls).1 l ∧
      (distinctSince (run (empty n) calls).1 l).length < n := by
  obtain ⟨s, h1, h2, h3⟩ := run_inv hn calls
  rw [h1.has_eq, used_iff]
  have hlen := (distinctSince_perm (run (empty n) calls).1 l).length_eq
  rw [List.length_map] at hlen
  rw [hlen]
  have hrec := h2.recent
  have : s.has l = true ↔ ∃ c ∈ (recency (run (empty n) calls).1).take n, c l = true := by
    rw [h3] at hrec
    rw [← hrec]
    simp only [Spec.has, List.any_eq_true, List.mem_map]
    constructor
    · rintro ⟨p, hp, h⟩; exact ⟨_, ⟨p, hp, rfl⟩, h⟩
    · rintro ⟨_, ⟨p, hp, rfl⟩, h⟩; exact ⟨p, hp, h⟩
  rw [this]
  have hcl := recency_cls (run (empty n) calls).1
  generalize recency (run (empty n) calls).1 = R at hcl
  clear this hrec hlen hn h3 h1 h2
  induction R generalizing n with
  | nil => simp
  | cons c R ih =>
    have ih := fun n => ih (n := n) (fun c hc => hcl c (List.mem_cons_of_mem _ hc))
    obtain ⟨x, rfl⟩ := hcl c (by simp)
    cases n with
    | zero => simp
    | succ n =>
      by_cases hx : Cmp.equiv x l = true
      · have h1 : cls l = cls x := (cls_eq.2 hx).symm
        rw [h1]
        simp [List.takeWhile_cons, cls, hx]
      · have h1 : cls l ≠ cls x := fun h => hx (Cmp.equiv_symm (cls_eq.1 h))
        have h2 : cls x l = false := by simpa [cls] using hx
        simp only [List.take_succ_cons, List.mem_cons, List.takeWhile_cons, h1, false_or, h2,
          Bool.not_false, if_true, List.length_cons, Nat.add_lt_add_iff_right]
        refine Iff.trans ?_ (ih n)
        constructor
        · rintro ⟨c, rfl | hc, hcl⟩
          · simp [h2] at hcl
          · exact ⟨c, hc, hcl⟩
        · rintro ⟨c, hc, hcl⟩; exact ⟨c, .inr hc, hcl⟩

/-- C04: a successful lookup returns the value of the last successful put of that label; a lookup
succeeds iff `has_label`. -/
theorem C04_get {n : Nat} (hn : 0 < n) (calls : List (Call L V)) (l : L) :
    (hasLabel (run (empty n) calls).2 l = true →
      ∃ v, lastPut (run (empty n) calls).1 l = some v ∧
        (call (run (empty n) calls).2 (.get l)).1 = .ok (.val v)) ∧
    (hasLabel (run (empty n) calls).2 l = false →
      (call (run (empty n) calls).2 (.get l)).1 = .exn .runtimeError) := by
  obtain ⟨s, h1, h2, _⟩ := run_inv hn calls
  rw [h1.has_eq, (call_refine h1 (.get l)).1, spec_get]
  constructor
  · intro h
    cases hf : s.items.find? (fun p => Cmp.equiv p.1 l) with
    | none =>
      rw [List.find?_eq_none] at hf
      unfold Spec.has at h; rw [List.any_eq_true] at h
      obtain ⟨p, hp, he⟩ := h
      exact absurd he (hf p hp)
    | some p =>
      refine ⟨p.2, ?_, rfl⟩
      have hpl : Cmp.equiv p.1 l = true := by simpa using List.find?_some hf
      rw [← lastPut_congr _ hpl]
      exact h2.values _ (List.mem_of_find?_eq_some hf)
  · intro h
    rw [spec_has_false] at h
    have : s.items.find? (fun p => Cmp.equiv p.1 l) = none := by simpa using h
    rw [this]

/-- The `has_label` call reports presence. -/
theorem C04_hasLabel_call (c : Cache L V) (l : L) :
    call c (.hasLabel l) = (.ok (.bool (hasLabel c l)), c) := rfl

example : lastPut (run (empty 2) demo).1 1 = some 10 ∧
    (call (run (empty 2) demo).2 (.get 1)).1 = .ok (.val 10) ∧
    distinctSince (run (empty 2) demo).1 1 = [3] ∧
    distinctSince (run (empty 2) demo).1 2 = [3, 1] ∧
    0 < lastUse (run (empty 2) demo).1 2 := by decide

/-! ## C05 -/

/-- C05: construction succeeds iff the size is positive. -/
theorem C05_construct (n : Nat) :
    (construct n : Res (Cache L V)) = if n = 0 then .exn .runtimeError else .ok (empty n) := by
  unfold construct empty
  by_cases h : n = 0
  · simp [h]
  · simp [h, Nat.pos_of_ne_zero h]

/-- C05: whatever the state, a call of a client program that does not return normally leaves the
cache as it was. -/
theorem C05_failingCall {n : Nat} (hn : 0 < n) (calls : List (Call L V)) (cl : Call L V)
    (hf : (call (run (empty n) calls).2 cl).1.isOk = false) :
    (call (run (empty n) calls).2 cl).2 = (run (empty n) calls).2 := by
  obtain ⟨s, h1, _, _⟩ := run_inv hn calls
  generalize (run (empty n) calls).2 = c at *
  cases cl with
  | hasLabel _ => rfl
  | currentSize => rfl
  | maximumSize => rfl
  | age l => simp only [call]; split <;> rfl
  | get l =>
    rcases get_refine h1 l with ⟨v, n, h, _⟩ | ⟨h, h', _⟩
    · simp only [call] at hf
      rw [show get c l = ((get c l).1, (get c l).2) from rfl, h] at hf
      simp [Res.isOk] at hf
    · simp only [call]
      rw [show get c l = ((get c l).1, (get c l).2) from rfl, h, h']
  | put l v =>
    rcases put_refine h1 l v with ⟨c', h, _⟩ | ⟨h, _⟩
    · simp [call, h, Res.isOk] at hf
    · simp [call, h]

/-- C05: which calls fail, and how: exactly `get`/`age` of an absent label and `put` of a present
one, with `std::runtime_error`; nothing else happens, in particular no undefined behaviour. -/
theorem C05_outcomes {n : Nat} (hn : 0 < n) (calls : List (Call L V)) (cl : Call L V) :
    let c := (run (empty n) calls).2
    ((call c cl).1.isOk = true ∨ (call c cl).1 = .exn .runtimeError) ∧
    ((call c cl).1 = .exn .runtimeError ↔
      (∃ l, cl = .get l ∧ hasLabel c l = false) ∨ (∃ l, cl = .age l ∧ hasLabel c l = false) ∨
      (∃ l v, cl = .put l v ∧ hasLabel c l = true)) := by
  obtain ⟨s, h1, _, _⟩ := run_inv hn calls
  intro c
  change Rep c s at h1
  cases cl with
  | hasLabel _ => simp [call, Res.isOk]
  | currentSize => simp [call, Res.isOk]
  | maximumSize => simp [call, Res.isOk]
  | age l =>
    simp only [call, age, hasLabel]
    cases hf : OMap.find l c.elements <;> simp [Res.isOk, hf]
  | get l =>
    simp only [call, get, hasLabel]
    cases hf : OMap.find l c.elements <;> simp [Res.isOk, hf]
  | put l v =>
    rcases put_refine h1 l v with ⟨c', h, _, _, h'⟩ | ⟨h, _, h'⟩
    · rw [← h1.has_eq] at h'
      simp [call, h, Res.isOk, h']
    · rw [← h1.has_eq] at h'
      simp [call, h, h']

/-- Failing calls occur: in the demo `get 2` after its eviction, `put` of a present label. -/
example : (call (run (empty 2) (demo.take 4)).2 (.get 2)).1 = .exn .runtimeError ∧
    (call (run (empty 2) demo).2 (.put 1 5)).1 = .exn .runtimeError ∧
    (call (run (empty 2) demo).2 (.age 2)).1 = .exn .runtimeError := by decide

end Helper.LRU
