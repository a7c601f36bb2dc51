import Verif.LRU.Refs
/-!
# C06, continued: labels that are parts of values in the cache; C109: copies and moves of caches

`LRUCache` declares no copy or move operations, so it has the implicit ones: they copy or move `_maximum_size` and the
`std::map` `_elements` (lru_cache.hpp:105-107).
-/
set_option linter.unusedSectionVars false
namespace Helper.LRU

variable {L : Type u} {V : Type v} [Cmp L]

/-! ## Labels that refer into the cache -/

/-- The argument `L const& label` of `put`: a label outside the cache, or the label that is a part of the value stored in a
node (as reached through a reference returned by `get`). A reference to the key of a node cannot get past line 81. -/
inductive LabelArg (L : Type u) where
  | ext (l : L)
  | part (node : Nat)

/-- Reading the label: reading a part of a value in an erased node is undefined behaviour. `lab` is the member access. -/
def LabelArg.read (lab : V → L) (es : List (L × Entry V)) : LabelArg L → Res L
  | .ext l => .ok l
  | .part n =>
    match (Arg.ref n : Arg V).read es with
    | .ok v => .ok (lab v)
    | .exn e => .exn e
    | .ub k => .ub k
    | .abort => .abort

/-- lru_cache.hpp:80-93 `put` with references for both arguments: line 81 reads the label, line 92 reads it again after line 90 has
erased a node, then reads the value. -/
def putRefs (lab : V → L) (c : Cache L V) (la : LabelArg L) (va : Arg V) : Res Unit × Cache L V :=
  match la.read lab c.elements with
  | .exn e => (.exn e, c)
  | .ub k => (.ub k, c)
  | .abort => (.abort, c)
  | .ok l0 =>
    if hasLabel c l0 then (.exn .runtimeError, c)
    else
      match makeRoom c with
      | .exn e => (.exn e, c)
      | .ub k => (.ub k, c)
      | .abort => (.abort, c)
      | .ok es =>
        match la.read lab es, va.read es with
        | .ok l, .ok v => (.ok (), { c with
            elements := OMap.insert l ⟨0, v, c.nextNode⟩ es, nextNode := c.nextNode + 1 })
        | .ok _, .ub k => (.ub k, { c with elements := es })
        | .ub k, _ => (.ub k, { c with elements := es })
        | _, _ => (.abort, { c with elements := es })

/-! ## Several cache variables -/

/-- The cache variables of a program, and the identity of the next map node (identities are unique in the program). -/
structure World (L : Type u) (V : Type v) where
  vars : List (Cache L V)
  next : Nat

/-- Statements about cache variables. An index without a variable means no operation. -/
inductive Op (L : Type u) (V : Type v) where
  | construct (n : Nat)
  | copy (i : Nat)
  | move (i : Nat)
  | assign (i j : Nat)
  | moveAssign (i j : Nat)
  | call (i : Nat) (cl : Call L V)

/-- Copying a `std::map` copies the elements into new nodes. -/
def clone (next : Nat) (c : Cache L V) : Cache L V :=
  { c with elements := c.elements.mapIdx fun k e => (e.1, { e.2 with node := next + k }), nextNode := next + c.elements.length }

/-- What is left of a cache whose map has been moved from: an empty map (the standard says "valid but unspecified"; it is empty
in all implementations) and the maximum size, which moving copies. -/
def movedFrom (c : Cache L V) : Cache L V := { c with elements := [] }

/-- One statement. Constructor: line 53. `copy`/`move` define a new variable from variable `i`; `assign i j` is `xi = xj`,
which does nothing for `i = j`; `moveAssign i j` is `xi = std::move(xj)`, which leaves an empty map for `i = j`. Moving
a map moves its nodes. -/
def step (w : World L V) : Op L V → Res (Out V) × World L V
  | .construct n =>
    match construct n with
    | .ok c => (.ok .unit, { w with vars := w.vars ++ [c] })
    | .exn e => (.exn e, w)
    | .ub k => (.ub k, w)
    | .abort => (.abort, w)
  | .copy i =>
    match w.vars[i]? with
    | none => (.ok .unit, w)
    | some c => (.ok .unit, ⟨w.vars ++ [clone w.next c], w.next + c.elements.length⟩)
  | .move i =>
    match w.vars[i]? with
    | none => (.ok .unit, w)
    | some c => (.ok .unit, { w with vars := w.vars.set i (movedFrom c) ++ [c] })
  | .assign i j =>
    match w.vars[j]? with
    | none => (.ok .unit, w)
    | some c =>
      if i = j then (.ok .unit, w)
      else (.ok .unit, ⟨w.vars.set i (clone w.next c), w.next + c.elements.length⟩)
  | .moveAssign i j =>
    match w.vars[i]?, w.vars[j]? with
    | some _, some c => (.ok .unit, { w with vars := (w.vars.set i c).set j (movedFrom c) })
    | _, _ => (.ok .unit, w)
  | .call i cl =>
    match w.vars[i]? with
    | none => (.ok .unit, w)
    | some c =>
      let r := LRU.call { c with nextNode := w.next } cl
      (r.1, ⟨w.vars.set i r.2, r.2.nextNode⟩)

/-- A program: what the statements returned, newest first, and the variables in the end. -/
def runOps (ops : List (Op L V)) : List (Res (Out V)) × World L V :=
  ops.foldl (fun s op => let r := step s.2 op; (r.1 :: s.1, r.2)) ([], ⟨[], 0⟩)

/-! ## Specification: variables that hold values -/

/-- The same statements on variables that simply hold abstract caches: copying copies the value, moving takes it and leaves an
empty cache of the same capacity. -/
def specStep (ss : List (Spec L V)) : Op L V → Res (Out V) × List (Spec L V)
  | .construct n => if n = 0 then (.exn .runtimeError, ss) else (.ok .unit, ss ++ [⟨n, []⟩])
  | .copy i =>
    match ss[i]? with
    | none => (.ok .unit, ss)
    | some s => (.ok .unit, ss ++ [s])
  | .move i =>
    match ss[i]? with
    | none => (.ok .unit, ss)
    | some s => (.ok .unit, ss.set i ⟨s.cap, []⟩ ++ [s])
  | .assign i j =>
    match ss[j]? with
    | none => (.ok .unit, ss)
    | some s => (.ok .unit, ss.set i s)
  | .moveAssign i j =>
    match ss[i]?, ss[j]? with
    | some _, some s => (.ok .unit, (ss.set i s).set j ⟨s.cap, []⟩)
    | _, _ => (.ok .unit, ss)
  | .call i cl =>
    match ss[i]? with
    | none => (.ok .unit, ss)
    | some s => let r := s.call cl; (r.1, ss.set i r.2)

/-- A program on the specification. -/
def specRunOps (ops : List (Op L V)) : List (Res (Out V)) × List (Spec L V) :=
  ops.foldl (fun s op => let r := specStep s.2 op; (r.1 :: s.1, r.2)) ([], [])

/-! ## Proofs -/

variable [StrictWeak L]

theorem LabelArg.read_part {lab : V → L} {es : List (L × Entry V)} {r : Nat} {v : V}
    (h : (Arg.ref r : Arg V).read es = .ok v) : (LabelArg.part r : LabelArg L).read lab es = .ok (lab v) := by
  simp [LabelArg.read, h]

theorem putRefs_ext (lab : V → L) (c : Cache L V) (l : L) (va : Arg V) :
    putRefs lab c (.ext l) va = put c l va none := by
  unfold putRefs put
  simp only [LabelArg.read]
  cases hasLabel c l with
  | true => rfl
  | false =>
    simp only [Bool.false_eq_true, if_false]
    cases makeRoom c with
    | ok es =>
      simp only []
      cases va with
      | ext v => rfl
      | ref n => cases h : (Arg.ref n : Arg V).read es with
        | ok v => rfl
        | ub k => rfl
        | exn e => simp only [Arg.read] at h; split at h <;> simp at h
        | abort => simp only [Arg.read] at h; split at h <;> simp at h
    | exn | ub | abort => rfl

/-- C06 (refuted): the label given to `put` is read again after the eviction, so a label that is part of the value being
evicted is read from a destroyed object, though the value given to `put` is not in the cache. -/
theorem C06_putLabel_refuted :
    ∃ (n : Nat) (calls : List (Call Nat Nat)) (r v : Nat), 0 < n ∧
      readRef (run (empty n) calls).2 r = .ok v ∧ hasLabel (run (empty n) calls).2 (v + 1) = false ∧
      (putRefs (· + 1) (run (empty n) calls).2 (.part r) (.ext 0)).1 = .ub .dangling :=
  ⟨1, [.put 1 10], 0, 10, by decide, by decide, by decide, by decide⟩

/-- C06 (the precise extent): with a live reference to the value `v` of label `k`, `put` of the label that is part of `v`
behaves as with a copy of that label, except when the cache is full and `k` is the least recently used label; then (and only
then) it is undefined. -/
theorem C06_putLabel_partial {n : Nat} (hn : 0 < n) (calls : List (Call L V)) {r : Nat} {v x : V} (lab : V → L)
    (hr : readRef (run (empty n) calls).2 r = .ok v)
    (hl : hasLabel (run (empty n) calls).2 (lab v) = false) :
    ∃ k, (call (run (empty n) calls).2 (.get k)).1 = .ok (.val v) ∧
      (if currentSize (run (empty n) calls).2 = n ∧ age (run (empty n) calls).2 k = .ok (n - 1)
       then (putRefs lab (run (empty n) calls).2 (.part r) (.ext x)).1 = .ub .dangling
       else putRefs lab (run (empty n) calls).2 (.part r) (.ext x) =
         put (run (empty n) calls).2 (lab v) (.ext x) none) := by
  obtain ⟨k, hk, hp⟩ := C06_putRef_partial hn calls hr hl
  refine ⟨k, hk, ?_⟩
  obtain ⟨s, h1, _, h3⟩ := run_inv hn calls
  generalize (run (empty n) calls).2 = c at *
  obtain ⟨es, hes, hroom⟩ := makeRoom_room h1
  have hread0 : (LabelArg.part r : LabelArg L).read lab c.elements = .ok (lab v) := LabelArg.read_part hr
  split
  · rename_i hc
    rw [if_pos hc] at hp
    simp only [put, hl, hes, Bool.false_eq_true, if_false] at hp
    have hd : (Arg.ref r : Arg V).read es = .ub .dangling := by
      cases hh : (Arg.ref r : Arg V).read es with
      | ok w => rw [hh] at hp; simp at hp
      | exn e => rw [hh] at hp; simp at hp
      | ub k => rw [hh] at hp; simpa using hp
      | abort => rw [hh] at hp; simp at hp
    have hread1 : (LabelArg.part r : LabelArg L).read lab es = .ub .dangling := by simp only [LabelArg.read, hd]
    unfold putRefs
    simp only [hread0, hl, hes, hread1, Bool.false_eq_true, if_false]
  · rename_i hc
    rw [if_neg hc] at hp
    have hext : (put c (lab v) (.ext v) none).1 = .ok () := by
      simp [put, hl, hes, Arg.read]
    have hd : (Arg.ref r : Arg V).read es = .ok v := by
      rw [← hp] at hext
      simp only [put, hl, hes, Bool.false_eq_true, if_false] at hext
      cases hh : (Arg.ref r : Arg V).read es with
      | ok w =>
        obtain ⟨e, he, hen, hev⟩ := (read_ok hroom.nodes).1 hh
        obtain ⟨e', he', _, g2, g3, _⟩ := hroom.sub e he
        obtain ⟨e0, he0, k1, k2⟩ := (read_ok h1.nodes).1 hr
        have := h1.node_inj he' he0 (by omega)
        rw [← hev, ← g2, this, k2]
      | exn e => rw [hh] at hext; simp at hext
      | ub k => rw [hh] at hext; simp at hext
      | abort => rw [hh] at hext; simp at hext
    have hread1 : (LabelArg.part r : LabelArg L).read lab es = .ok (lab v) := LabelArg.read_part hd
    unfold putRefs put
    simp only [hread0, hl, hes, hread1, Arg.read, Bool.false_eq_true, if_false]

/-! ### Several caches -/

/-- Invariant: every variable represents its specification, and no node belongs to two variables. -/
structure WInv (w : World L V) (ss : List (Spec L V)) : Prop where
  len : w.vars.length = ss.length
  rep : ∀ (i : Nat) (c : Cache L V) (s : Spec L V), w.vars[i]? = some c → ss[i]? = some s → Rep c s
  fresh : ∀ (i : Nat) (c : Cache L V), w.vars[i]? = some c → ∀ e ∈ c.elements, e.2.node < w.next
  apart : ∀ (i j : Nat) (c d : Cache L V), i ≠ j → w.vars[i]? = some c → w.vars[j]? = some d →
    ∀ e ∈ c.elements, ∀ e' ∈ d.elements, e.2.node ≠ e'.2.node

theorem Rep.withNext {c : Cache L V} {s : Spec L V} (h : Rep c s) {m : Nat} (hm : ∀ e ∈ c.elements, e.2.node < m) :
    Rep { c with nextNode := m } s :=
  ⟨h.max, h.pos, h.len, h.perm, h.sorted, h.nodes, hm⟩

theorem clone_elem {m : Nat} {c : Cache L V} {e : L × Entry V} (he : e ∈ (clone m c).elements) :
    m ≤ e.2.node ∧ e.2.node < m + c.elements.length := by
  simp only [clone, List.mem_mapIdx] at he
  obtain ⟨i, hi, rfl⟩ := he
  simp only
  omega

theorem clone_rep {c : Cache L V} {s : Spec L V} (h : Rep c s) (m : Nat) : Rep (clone m c) s := by
  refine ⟨h.max, h.pos, h.len, ?_, ?_, ?_, fun e he => (clone_elem he).2⟩
  · have : (clone m c).elements.map view = c.elements.map view := by
      apply List.ext_getElem <;> simp [clone, view]
    rw [this]; exact h.perm
  · refine map_sorted_congr ?_ h.sorted
    apply List.ext_getElem <;> simp [clone]
  · rw [List.nodup_iff_pairwise_ne, List.pairwise_iff_getElem]
    intro i j hi hj hij
    simp [clone]
    omega

theorem movedFrom_rep {c : Cache L V} {s : Spec L V} (h : Rep c s) : Rep (movedFrom c) ⟨s.cap, []⟩ :=
  ⟨h.max, h.pos, by simp, by simp [movedFrom, aged], by simp [movedFrom, OMap.Sorted], by simp [movedFrom],
    by simp [movedFrom]⟩

theorem WInv.get {w : World L V} {ss : List (Spec L V)} (h : WInv w ss) (i : Nat) :
    (w.vars[i]? = none ∧ ss[i]? = none) ∨ ∃ c s, w.vars[i]? = some c ∧ ss[i]? = some s := by
  by_cases hi : i < w.vars.length
  · exact .inr ⟨_, _, List.getElem?_eq_getElem hi, List.getElem?_eq_getElem (by rw [← h.len]; exact hi)⟩
  · exact .inl ⟨List.getElem?_eq_none (by omega), List.getElem?_eq_none (by rw [← h.len]; omega)⟩

/-- A new variable whose nodes belong to nobody else. -/
theorem WInv.push {w : World L V} {ss : List (Spec L V)} (h : WInv w ss) {m : Nat} (hm : w.next ≤ m) {c : Cache L V}
    {s : Spec L V} (hr : Rep c s) (hc : ∀ e ∈ c.elements, e.2.node < m)
    (ha : ∀ (i : Nat) (d : Cache L V), w.vars[i]? = some d → ∀ e ∈ c.elements, ∀ e' ∈ d.elements, e.2.node ≠ e'.2.node) :
    WInv ⟨w.vars ++ [c], m⟩ (ss ++ [s]) := by
  have hget : ∀ i d, (w.vars ++ [c])[i]? = some d → w.vars[i]? = some d ∨ (i = w.vars.length ∧ d = c) := by
    intro i d hd
    rw [List.getElem?_append] at hd
    split at hd
    · exact .inl hd
    · rename_i hi
      obtain ⟨k, hk⟩ : ∃ k, i - w.vars.length = k := ⟨_, rfl⟩
      rw [hk] at hd
      cases k with
      | zero => simp at hd; exact .inr ⟨by omega, hd.symm⟩
      | succ k => simp at hd
  refine ⟨by simp [h.len], fun i d t hd ht => ?_, fun i d hd e he => ?_, fun i j d d' hij hd hd' e he e' he' => ?_⟩
  · rcases hget i d hd with hd | ⟨rfl, rfl⟩
    · have hi : i < ss.length := by rw [← h.len]; exact (List.getElem?_eq_some_iff.1 hd).1
      rw [List.getElem?_append_left hi] at ht
      exact h.rep i d t hd ht
    · rw [h.len] at ht; simp at ht; rw [← ht]; exact hr
  · rcases hget i d hd with hd | ⟨rfl, rfl⟩
    · exact Nat.lt_of_lt_of_le (h.fresh i d hd e he) hm
    · exact hc e he
  · rcases hget i d hd with hdw | ⟨rfl, rfl⟩ <;> rcases hget j d' hd' with hdw' | ⟨rfl, rfl⟩
    · exact h.apart i j d d' hij hdw hdw' e he e' he'
    · exact (ha i d hdw e' he' e he).symm
    · exact ha j d' hdw' e he e' he'
    · exact absurd rfl hij

/-- A variable gets a new state whose nodes belong to no other variable. -/
theorem WInv.set {w : World L V} {ss : List (Spec L V)} (h : WInv w ss) {m : Nat} (hm : w.next ≤ m) {i : Nat} {c : Cache L V}
    {s : Spec L V} (hr : Rep c s) (hc : ∀ e ∈ c.elements, e.2.node < m)
    (ha : ∀ (j : Nat) (d : Cache L V), j ≠ i → w.vars[j]? = some d → ∀ e ∈ c.elements, ∀ e' ∈ d.elements, e.2.node ≠ e'.2.node) :
    WInv ⟨w.vars.set i c, m⟩ (ss.set i s) := by
  have hget : ∀ j d, (w.vars.set i c)[j]? = some d → (j ≠ i ∧ w.vars[j]? = some d) ∨ (j = i ∧ d = c) := by
    intro j d hd
    rw [List.getElem?_set] at hd
    split at hd
    · rename_i hij
      split at hd
      · exact .inr ⟨hij.symm, by simpa using hd.symm⟩
      · simp at hd
    · rename_i hij; exact .inl ⟨fun hh => hij hh.symm, hd⟩
  refine ⟨by simp [h.len], fun j d t hd ht => ?_, fun j d hd e he => ?_, fun j k d d' hjk hd hd' e he e' he' => ?_⟩
  · rcases hget j d hd with ⟨hj, hd⟩ | ⟨rfl, rfl⟩
    · rw [List.getElem?_set_ne (fun hh => hj hh.symm)] at ht
      exact h.rep j d t hd ht
    · rw [List.getElem?_set_self'] at ht
      cases hs : ss[j]? with
      | none => rw [hs] at ht; simp at ht
      | some x => rw [hs] at ht; simp at ht; rw [← ht]; exact hr
  · rcases hget j d hd with ⟨hj, hd⟩ | ⟨rfl, rfl⟩
    · exact Nat.lt_of_lt_of_le (h.fresh j d hd e he) hm
    · exact hc e he
  · rcases hget j d hd with ⟨hj, hdw⟩ | ⟨rfl, rfl⟩ <;> rcases hget k d' hd' with ⟨hk, hdw'⟩ | ⟨rfl, rfl⟩
    · exact h.apart j k d d' hjk hdw hdw' e he e' he'
    · exact (ha j d hj hdw e' he' e he).symm
    · exact ha k d' hk hdw' e he e' he'
    · exact absurd rfl hjk

theorem list_set_self {α : Type w} {l : List α} {i : Nat} {a : α} (h : l[i]? = some a) : l.set i a = l := by
  apply List.ext_getElem?
  intro j
  rw [List.getElem?_set]
  split
  · rename_i hij; subst hij
    rw [h]
    split
    · rfl
    · rename_i hh; rw [List.getElem?_eq_none (by omega)] at h; simp at h
  · rfl

theorem step_refine {w : World L V} {ss : List (Spec L V)} (h : WInv w ss) (op : Op L V) :
    (step w op).1 = (specStep ss op).1 ∧ WInv (step w op).2 (specStep ss op).2 ∧ w.next ≤ (step w op).2.next := by
  cases op with
  | construct n =>
    simp only [step, specStep, LRU.construct]
    by_cases hn : n = 0
    · subst hn; simp [h]
    · have : n > 0 := by omega
      simp only [this, hn, if_true, if_false, true_and]
      refine ⟨h.push (Nat.le_refl _) (rep_empty this) ?_ ?_, Nat.le_refl _⟩ <;> simp
  | copy i =>
    simp only [step, specStep]
    rcases h.get i with ⟨h1, h2⟩ | ⟨c, s, h1, h2⟩
    · simp [h1, h2, h]
    · simp only [h1, h2, true_and]
      refine ⟨h.push (by omega) (clone_rep (h.rep i c s h1 h2) _) (fun e he => (clone_elem he).2) ?_, by omega⟩
      intro j d hd e he e' he'
      have h1 := (clone_elem he).1
      have h2 := h.fresh j d hd e' he'
      omega
  | move i =>
    simp only [step, specStep]
    rcases h.get i with ⟨h1, h2⟩ | ⟨c, s, h1, h2⟩
    · simp [h1, h2, h]
    · simp only [h1, h2, true_and]
      have hset := h.set (Nat.le_refl _) (i := i) (movedFrom_rep (h.rep i c s h1 h2)) (by simp [movedFrom])
        (by simp [movedFrom])
      refine ⟨hset.push (Nat.le_refl _) (h.rep i c s h1 h2) (h.fresh i c h1) ?_, Nat.le_refl _⟩
      intro j d hd e he e' he'
      rw [List.getElem?_set] at hd
      split at hd
      · split at hd
        · simp at hd; subst hd; simp [movedFrom] at he'
        · simp at hd
      · rename_i hij
        exact h.apart i j c d hij h1 hd e he e' he'
  | assign i j =>
    simp only [step, specStep]
    rcases h.get j with ⟨h1, h2⟩ | ⟨c, s, h1, h2⟩
    · simp [h1, h2, h]
    · simp only [h1, h2]
      by_cases hij : i = j
      · subst hij
        simp only [if_true, true_and]
        rw [list_set_self h2]
        exact ⟨h, Nat.le_refl _⟩
      · simp only [hij, if_false, true_and]
        refine ⟨h.set (by omega) (clone_rep (h.rep j c s h1 h2) _) (fun e he => (clone_elem he).2) ?_, by omega⟩
        intro k d _ hd e he e' he'
        have h1 := (clone_elem he).1
        have h2 := h.fresh k d hd e' he'
        omega
  | moveAssign i j =>
    simp only [step, specStep]
    rcases h.get i with ⟨h1, h2⟩ | ⟨c0, s0, h1, h2⟩
    · simp [h1, h2, h]
    · rcases h.get j with ⟨g1, g2⟩ | ⟨c, s, g1, g2⟩
      · simp [h1, h2, g1, g2, h]
      · simp only [h1, h2, g1, g2, true_and]
        refine ⟨?_, Nat.le_refl _⟩
        -- first empty the source, then fill the target
        by_cases hij : i = j
        · subst hij
          rw [List.set_set, List.set_set]
          exact h.set (Nat.le_refl _) (movedFrom_rep (h.rep i c s g1 g2)) (by simp [movedFrom]) (by simp [movedFrom])
        · rw [List.set_comm _ _ hij, List.set_comm (l := ss) _ _ hij]
          have hset := h.set (Nat.le_refl _) (i := j) (movedFrom_rep (h.rep j c s g1 g2)) (by simp [movedFrom])
            (by simp [movedFrom])
          refine hset.set (Nat.le_refl _) (h.rep j c s g1 g2) (h.fresh j c g1) ?_
          intro k d _ hd e he e' he'
          simp only at hd
          rw [List.getElem?_set] at hd
          split at hd
          · split at hd
            · simp at hd; subst hd; simp [movedFrom] at he'
            · simp at hd
          · rename_i hjk
            exact h.apart j k c d hjk g1 hd e he e' he'
  | call i cl =>
    simp only [step, specStep]
    rcases h.get i with ⟨h1, h2⟩ | ⟨c, s, h1, h2⟩
    · simp [h1, h2, h]
    · simp only [h1, h2]
      have hr := (h.rep i c s h1 h2).withNext (h.fresh i c h1)
      have hc := call_refine hr cl
      have hn := call_nodeStep hr cl
      refine ⟨hc.1, h.set hn.next hc.2 hc.2.fresh ?_, hn.next⟩
      intro k d hk hd e he e' he'
      have hf := h.fresh k d hd e' he'
      rcases hn.old e he with h3 | ⟨e0, he0, h3, _⟩
      · simp only at h3; omega
      · rw [← h3]
        exact h.apart i k c d (fun hh => hk hh.symm) h1 hd e0 he0 e' he'

theorem runOps_snoc (ops : List (Op L V)) (op : Op L V) :
    runOps (ops ++ [op]) = ((step (runOps ops).2 op).1 :: (runOps ops).1, (step (runOps ops).2 op).2) := by
  simp [runOps]

theorem specRunOps_snoc (ops : List (Op L V)) (op : Op L V) :
    specRunOps (ops ++ [op]) =
      ((specStep (specRunOps ops).2 op).1 :: (specRunOps ops).1, (specStep (specRunOps ops).2 op).2) := by
  simp [specRunOps]

theorem runOps_refine (ops : List (Op L V)) :
    (runOps ops).1 = (specRunOps ops).1 ∧ WInv (runOps ops).2 (specRunOps ops).2 := by
  induction ops using snoc_induction with
  | nil =>
    exact ⟨rfl, rfl, by simp [runOps], by simp [runOps], by simp [runOps]⟩
  | snoc ops op ih =>
    rw [runOps_snoc, specRunOps_snoc]
    have := step_refine ih.2 op
    exact ⟨by rw [ih.1, this.1], this.2.1⟩

/-- C109: cache variables behave as variables that hold values: whatever is constructed, copied, moved, assigned and called, every
statement returns the same as on abstract caches, and nothing is undefined. -/
theorem C109_values (ops : List (Op L V)) :
    (runOps ops).1 = (specRunOps ops).1 ∧ ∀ r ∈ (runOps ops).1, r.isUB = false := by
  refine ⟨(runOps_refine ops).1, ?_⟩
  rw [(runOps_refine ops).1]
  induction ops using snoc_induction with
  | nil => simp [specRunOps]
  | snoc ops op ih =>
    rw [specRunOps_snoc]
    intro r hr
    rcases List.mem_cons.1 hr with rfl | hr
    · cases op with
      | construct n => simp only [specStep]; split <;> rfl
      | copy i => simp only [specStep]; split <;> rfl
      | move i => simp only [specStep]; split <;> rfl
      | assign i j => simp only [specStep]; split <;> rfl
      | moveAssign i j => simp only [specStep]; split <;> rfl
      | call i cl =>
        simp only [specStep]
        split
        · rfl
        · cases cl <;> simp only [Spec.call] <;> (try split) <;> rfl
    · exact ih r hr

/-- The variables a statement may change. -/
def Op.touches : Op L V → Nat → Prop
  | .construct _, _ => False
  | .copy _, _ => False
  | .move i, k => k = i
  | .assign i _, k => k = i
  | .moveAssign i j, k => k = i ∨ k = j
  | .call i _, k => k = i

/-- C109: a statement leaves all other variables as they are, also the references into them. -/
theorem C109_others (w : World L V) (op : Op L V) (k : Nat) (c : Cache L V) (hk : w.vars[k]? = some c)
    (ht : ¬ op.touches k) : (step w op).2.vars[k]? = some c := by
  have hlt : k < w.vars.length := (List.getElem?_eq_some_iff.1 hk).1
  cases op with
  | construct n =>
    simp only [step]
    split <;> simp only [hk, List.getElem?_append_left hlt]
  | copy i =>
    simp only [step]
    split <;> simp only [hk, List.getElem?_append_left hlt]
  | move i =>
    simp only [step, Op.touches] at ht ⊢
    split
    · exact hk
    · rw [List.getElem?_append_left (by simpa using hlt), List.getElem?_set_ne (fun hh => ht hh.symm), hk]
  | assign i j =>
    simp only [step, Op.touches] at ht ⊢
    split
    · exact hk
    · split
      · exact hk
      · rw [List.getElem?_set_ne (fun hh => ht hh.symm), hk]
  | moveAssign i j =>
    simp only [step, Op.touches, not_or] at ht ⊢
    split
    · rw [List.getElem?_set_ne (fun hh => ht.2 hh.symm), List.getElem?_set_ne (fun hh => ht.1 hh.symm), hk]
    · exact hk
  | call i cl =>
    simp only [step, Op.touches] at ht ⊢
    split
    · exact hk
    · rw [List.getElem?_set_ne (fun hh => ht hh.symm), hk]

/-- C109: a reference into a cache is a reference into one variable only; a copy has objects of its own, and moving takes the
objects along. Assigning to the variable destroys them. -/
theorem C109_refs (ops : List (Op L V)) (i : Nat) (c : Cache L V) (hi : (runOps ops).2.vars[i]? = some c) (r : Nat) (v : V)
    (hr : readRef c r = .ok v) :
    (∀ j d, j ≠ i → (runOps ops).2.vars[j]? = some d → readRef d r = .ub .dangling) ∧
    (∃ d, (step (runOps ops).2 (.copy i)).2.vars[(runOps ops).2.vars.length]? = some d ∧ readRef d r = .ub .dangling) ∧
    (∃ d e, (step (runOps ops).2 (.move i)).2.vars[(runOps ops).2.vars.length]? = some d ∧ readRef d r = .ok v ∧
      (step (runOps ops).2 (.move i)).2.vars[i]? = some e ∧ readRef e r = .ub .dangling) ∧
    (∀ j, j ≠ i → j < (runOps ops).2.vars.length →
      (∃ d e, (step (runOps ops).2 (.moveAssign j i)).2.vars[j]? = some d ∧ readRef d r = .ok v ∧
        (step (runOps ops).2 (.moveAssign j i)).2.vars[i]? = some e ∧ readRef e r = .ub .dangling) ∧
      (∃ d, (step (runOps ops).2 (.assign i j)).2.vars[i]? = some d ∧ readRef d r = .ub .dangling)) ∧
    (∃ d, (step (runOps ops).2 (.assign i i)).2.vars[i]? = some d ∧ readRef d r = .ok v) := by
  have h := (runOps_refine ops).2
  generalize (runOps ops).2 = w at *
  have hlt : i < w.vars.length := (List.getElem?_eq_some_iff.1 hi).1
  obtain ⟨e, he, hen, hev⟩ : ∃ e ∈ c.elements, e.2.node = r ∧ e.2.value = v := by
    rcases h.get i with ⟨h1, _⟩ | ⟨c', s, h1, h2⟩
    · rw [h1] at hi; simp at hi
    · exact (readRef_ok (h.rep i c s hi h2)).1 hr
  have hfr := h.fresh i c hi e he
  have hclone : ∀ d : Cache L V, readRef (clone w.next d) r = .ub .dangling := by
    intro d
    rw [readRef_dangling]
    intro x hx
    have := (clone_elem hx).1
    omega
  have hmoved : readRef (movedFrom c) r = .ub .dangling := by
    rw [readRef_dangling]; simp [movedFrom]
  refine ⟨fun j d hj hd => ?_, ?_, ?_, fun j hj hjl => ⟨?_, ?_⟩, ?_⟩
  · rw [readRef_dangling]
    intro x hx
    have := h.apart i j c d (fun hh => hj hh.symm) hi hd e he x hx
    omega
  · simp only [step, hi]
    exact ⟨_, by simp, hclone c⟩
  · simp only [step, hi]
    refine ⟨c, movedFrom c, ?_, hr, ?_, hmoved⟩
    · rw [List.getElem?_append_right (by simp)]; simp
    · rw [List.getElem?_append_left (by simpa using hlt)]
      simp [hlt]
  · obtain ⟨d, hd⟩ : ∃ d, w.vars[j]? = some d := ⟨_, List.getElem?_eq_getElem hjl⟩
    simp only [step, hi, hd]
    refine ⟨c, movedFrom c, ?_, hr, ?_, hmoved⟩
    · rw [List.getElem?_set_ne (fun hh => hj hh.symm)]; simp [hjl]
    · simp [hlt]
  · obtain ⟨d, hd⟩ : ∃ d, w.vars[j]? = some d := ⟨_, List.getElem?_eq_getElem hjl⟩
    simp only [step, hd, if_neg (fun hh : i = j => hj hh.symm)]
    exact ⟨clone w.next d, by simp [hlt], hclone d⟩
  · simp only [step, hi, if_true]
    exact ⟨c, rfl, hr⟩

/-- A program in the examples: a cache of two labels, a copy of it, different calls on both, the original moved. -/
def worldDemo : List (Op Nat Nat) :=
  [.construct 2, .call 0 (.put 1 10), .copy 0, .call 0 (.put 2 20), .call 1 (.put 3 30), .move 0, .call 0 (.get 1),
    .call 2 (.get 1), .call 1 (.get 2), .construct 0]

example : (runOps worldDemo).1 = [.exn .runtimeError, .exn .runtimeError, .ok (.val 10), .exn .runtimeError,
    .ok .unit, .ok .unit, .ok .unit, .ok .unit, .ok .unit, .ok .unit] := by decide +kernel
/-- `C109_refs` applies: a reference to the value 20 in the moved cache. -/
example : ∃ c, (runOps worldDemo).2.vars[2]? = some c ∧ readRef c 2 = .ok 20 ∧ readRef c 0 = .ok 10 := by
  refine ⟨_, rfl, by decide +kernel, by decide +kernel⟩

end Helper.LRU
