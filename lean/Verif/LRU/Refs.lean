import Verif.LRU.Props
/-!
# C06: references returned by `get`; C07: insertions that throw
-/
set_option linter.unusedSectionVars false
namespace Helper.LRU

variable {L : Type u} {V : Type v} [Cmp L] [StrictWeak L]
variable {c : Cache L V} {s : Spec L V}

/-- How a call treats map nodes. -/
structure NodeStep (c c' : Cache L V) : Prop where
  next : c.nextNode ≤ c'.nextNode
  old : ∀ e' ∈ c'.elements, e'.2.node = c.nextNode ∨
    ∃ e ∈ c.elements, e.2.node = e'.2.node ∧ e.1 = e'.1 ∧ e.2.value = e'.2.value
  kept : ∀ e ∈ c.elements, hasLabel c' e.1 = true →
    ∃ e' ∈ c'.elements, e.2.node = e'.2.node ∧ e.1 = e'.1 ∧ e.2.value = e'.2.value

theorem NodeStep.refl (c : Cache L V) : NodeStep c c :=
  ⟨Nat.le_refl _, fun e he => .inr ⟨e, he, rfl, rfl, rfl⟩, fun e he _ => ⟨e, he, rfl, rfl, rfl⟩⟩

theorem hasLabel_of_mem {e : L × Entry V} (he : e ∈ c.elements) : hasLabel c e.1 = true := by
  unfold hasLabel
  rw [OMap.find_isSome]
  exact ⟨e, he, by simp⟩

theorem hasLabel_true {l : L} (h : hasLabel c l = true) :
    ∃ e ∈ c.elements, Cmp.equiv e.1 l = true := by
  unfold hasLabel at h; rwa [OMap.find_isSome] at h

theorem get_nodeStep (c : Cache L V) (l : L) : NodeStep c (get c l).2 := by
  unfold get
  cases hf : OMap.find l c.elements with
  | none => exact NodeStep.refl c
  | some e0 =>
    have key : ∀ x : L × Entry V, ∃ y : L × Entry V,
        resetAge e0.2.node (bumpYounger e0.2.age [x]) = [y] ∧
        x.2.node = y.2.node ∧ x.1 = y.1 ∧ x.2.value = y.2.value := by
      intro x
      simp only [resetAge, bumpYounger, List.map_cons, List.map_nil]
      exact ⟨_, rfl, by split <;> split <;> simp, by split <;> split <;> simp,
        by split <;> split <;> simp⟩
    have hmem : ∀ y, y ∈ resetAge e0.2.node (bumpYounger e0.2.age c.elements) ↔
        ∃ x ∈ c.elements, resetAge e0.2.node (bumpYounger e0.2.age [x]) = [y] := by
      intro y
      simp only [resetAge, bumpYounger, List.map_map, List.mem_map, List.map_cons, List.map_nil,
        List.cons.injEq, and_true]
      rfl
    refine ⟨Nat.le_refl _, fun y hy => .inr ?_, fun x hx _ => ?_⟩
    · obtain ⟨x, hx, hxy⟩ := (hmem y).1 hy
      obtain ⟨y', h1, h2⟩ := key x
      rw [hxy] at h1; cases h1
      exact ⟨x, hx, h2⟩
    · obtain ⟨y, h1, h2⟩ := key x
      exact ⟨y, (hmem y).2 ⟨x, hx, h1⟩, h2⟩

theorem put_nodeStep (h : Rep c s) (l : L) (v : V) : NodeStep c (put c l (.ext v) none).2 := by
  unfold put
  cases hh : hasLabel c l with
  | true => exact NodeStep.refl c
  | false =>
    have hno : ∀ e ∈ c.elements, Cmp.equiv e.1 l = false := by
      intro e he
      cases hq : Cmp.equiv e.1 l
      · rfl
      · have : hasLabel c l = true := by
          unfold hasLabel; rw [OMap.find_isSome]; exact ⟨e, he, hq⟩
        rw [this] at hh; simp at hh
    obtain ⟨es, hes, hr⟩ := makeRoom_room h
    simp only [Bool.false_eq_true, if_false, hes, Arg.read]
    have hno' : ∀ e ∈ es, Cmp.equiv e.1 l = false := by
      intro e he
      obtain ⟨e', he', hl, _⟩ := hr.sub e he
      rw [← hl]; exact hno e' he'
    have hperm := OMap.insert_perm (v := (⟨0, v, c.nextNode⟩ : Entry V)) hno'
    refine ⟨Nat.le_succ _, fun y hy => ?_, fun x hx hxl => ?_⟩
    · rcases List.mem_cons.1 (hperm.mem_iff.1 hy) with rfl | hy
      · exact .inl rfl
      · obtain ⟨e', he', h1, h2, h3, _⟩ := hr.sub y hy
        exact .inr ⟨e', he', h3, h1, h2⟩
    · obtain ⟨y, hy, hyx⟩ := hasLabel_true hxl
      rcases List.mem_cons.1 (hperm.mem_iff.1 hy) with rfl | hy'
      · have := hno x hx; rw [Cmp.equiv_comm] at this; rw [this] at hyx; simp at hyx
      · obtain ⟨e', he', h1, h2, h3, _⟩ := hr.sub y hy'
        have : e' = x := h.sorted.inj he' hx (by rw [h1]; exact hyx)
        subst this
        exact ⟨y, hy, h3, h1, h2⟩

theorem call_nodeStep (h : Rep c s) (cl : Call L V) : NodeStep c (call c cl).2 := by
  cases cl with
  | hasLabel _ => exact NodeStep.refl c
  | currentSize => exact NodeStep.refl c
  | maximumSize => exact NodeStep.refl c
  | age l => simp only [call]; split <;> exact NodeStep.refl c
  | get l =>
    have := get_nodeStep c l
    simp only [call]
    generalize get c l = g at this
    obtain ⟨r, c'⟩ := g
    cases r <;> exact this
  | put l v =>
    have := put_nodeStep h l v
    simp only [call]
    generalize put c l (.ext v) none = g at this
    obtain ⟨r, c'⟩ := g
    cases r <;> exact this

theorem read_ok {es : List (L × Entry V)} (hn : (es.map (fun e => e.2.node)).Nodup) {r : Nat} {v : V} :
    (Arg.ref r : Arg V).read es = .ok v ↔ ∃ e ∈ es, e.2.node = r ∧ e.2.value = v := by
  simp only [Arg.read]
  split
  · rename_i e hf
    have he := List.mem_of_find?_eq_some hf
    have her : e.2.node = r := by simpa using List.find?_some hf
    constructor
    · intro h; exact ⟨e, he, her, by simpa using h⟩
    · rintro ⟨e', he', hr, hv⟩
      rw [nodup_map_inj hn he he' (by omega), hv]
  · rename_i hf
    rw [List.find?_eq_none] at hf
    constructor
    · intro h; simp at h
    · rintro ⟨e', he', hr, hv⟩
      have := hf e' he'; simp [hr] at this

theorem read_dangling {es : List (L × Entry V)} {r : Nat} :
    (Arg.ref r : Arg V).read es = .ub .dangling ↔ ∀ e ∈ es, e.2.node ≠ r := by
  simp only [Arg.read]
  split
  · rename_i e hf
    have he := List.mem_of_find?_eq_some hf
    have her : e.2.node = r := by simpa using List.find?_some hf
    constructor
    · intro h; simp at h
    · intro h; exact absurd her (h e he)
  · rename_i hf
    rw [List.find?_eq_none] at hf
    simp only [true_iff]
    intro e he; simpa using hf e he

theorem readRef_ok (h : Rep c s) {r : Nat} {v : V} :
    readRef c r = .ok v ↔ ∃ e ∈ c.elements, e.2.node = r ∧ e.2.value = v := read_ok h.nodes

theorem readRef_dangling {r : Nat} :
    readRef c r = .ub .dangling ↔ ∀ e ∈ c.elements, e.2.node ≠ r := read_dangling

/-- A run from a represented cache stays represented. -/
theorem run_rep (h : Rep c s) (more : List (Call L V)) : ∃ s', Rep (run c more).2 s' := by
  induction more using snoc_induction with
  | nil => exact ⟨s, h⟩
  | snoc more cl ih =>
    obtain ⟨s', h'⟩ := ih
    rw [run_snoc]
    exact ⟨_, (call_refine h' cl).2⟩

theorem node_stays (h : Rep c s) {e : L × Entry V} (he : e ∈ c.elements) :
    ∀ (more : List (Call L V)), (∀ k, hasLabel (run c (more.take k)).2 e.1 = true) →
      ∃ e' ∈ (run c more).2.elements, e.2.node = e'.2.node ∧ e.1 = e'.1 ∧ e.2.value = e'.2.value := by
  intro more
  induction more using snoc_induction with
  | nil => intro _; exact ⟨e, he, rfl, rfl, rfl⟩
  | snoc more cl ih =>
    intro hst
    obtain ⟨e', he', h1, h2, h3⟩ := ih (fun k => by
      by_cases hk : k ≤ more.length
      · have := hst k; rwa [List.take_append_of_le_length hk] at this
      · have := hst more.length
        rw [List.take_append_of_le_length (Nat.le_refl _), List.take_length] at this
        rwa [List.take_of_length_le (by omega)])
    obtain ⟨s', h'⟩ := run_rep h more
    have hlast := hst (more.length + 1)
    rw [List.take_of_length_le (by simp)] at hlast
    rw [run_snoc] at hlast ⊢
    obtain ⟨e'', he'', g1, g2, g3⟩ := (call_nodeStep h' cl).kept e' he' (by rw [← h2]; exact hlast)
    exact ⟨e'', he'', by omega, by rw [h2, g2], by rw [h3, g3]⟩

theorem node_gone (h : Rep c s) {r : Nat} (hr : r < c.nextNode)
    (hg : ∀ e ∈ c.elements, e.2.node ≠ r) (more : List (Call L V)) :
    r < (run c more).2.nextNode ∧ ∀ e ∈ (run c more).2.elements, e.2.node ≠ r := by
  induction more using snoc_induction with
  | nil => exact ⟨hr, hg⟩
  | snoc more cl ih =>
    obtain ⟨s', h'⟩ := run_rep h more
    rw [run_snoc]
    have hs := call_nodeStep h' cl
    refine ⟨Nat.lt_of_lt_of_le ih.1 hs.next, fun e he hn => ?_⟩
    rcases hs.old e he with h1 | ⟨e', he', h1, _⟩
    · have := ih.1; omega
    · exact ih.2 e' he' (by omega)

theorem get_ok {l : L} {v : V} {r : Nat} {c1 : Cache L V} (hg : get c l = (.ok (v, r), c1)) :
    ∃ e ∈ c1.elements, Cmp.equiv e.1 l = true ∧ e.2.node = r ∧ e.2.value = v := by
  have hst := get_nodeStep c l
  unfold get at hg hst
  cases hf : OMap.find l c.elements with
  | none => rw [hf] at hg; simp at hg
  | some e =>
    rw [hf] at hg hst
    simp only [Prod.mk.injEq, Res.ok.injEq] at hg
    obtain ⟨⟨hv, hr⟩, hc⟩ := hg
    have he := OMap.find_some_mem hf
    simp only [hc] at hst
    have hin : ∃ y ∈ c1.elements, Cmp.equiv y.1 e.1 = true := by
      rw [← hc]
      refine ⟨_, List.mem_map_of_mem (List.mem_map_of_mem he.1), ?_⟩
      split <;> split <;> simp
    obtain ⟨e', he', h1, h2, h3⟩ := hst.kept e he.1 (by
      unfold hasLabel; rw [OMap.find_isSome]; exact hin)
    exact ⟨e', he', by rw [← h2]; exact he.2, by omega, by rw [← h3]; exact hv⟩

theorem hasLabel_congr (c : Cache L V) {a b : L} (h : Cmp.equiv a b = true) :
    hasLabel c a = hasLabel c b := by
  unfold hasLabel OMap.find
  simp only [Cmp.equiv_of_equiv_right h]

/-- C06: the reference returned by `get l` denotes the same value as long as `l` has not been
evicted, whatever else is called in between. -/
theorem C06_stable {n : Nat} (hn : 0 < n) (calls : List (Call L V)) {l : L} {v : V} {r : Nat}
    {c1 : Cache L V} (hg : get (run (empty n) calls).2 l = (.ok (v, r), c1))
    (more : List (Call L V)) (hst : StaysPresent c1 l more) :
    readRef (run c1 more).2 r = .ok v := by
  obtain ⟨s, h1, _, _⟩ := run_inv hn calls
  have hc1 : c1 = (call (run (empty n) calls).2 (.get l)).2 := by simp [call, hg]
  have hrep : Rep c1 _ := hc1 ▸ (call_refine h1 (.get l)).2
  obtain ⟨e, he, hel, hr, hv⟩ := get_ok hg
  obtain ⟨e', he', g1, g2, g3⟩ := node_stays hrep he more (fun k => by
    rw [hasLabel_congr _ hel]; exact hst k)
  obtain ⟨s', hrep'⟩ := run_rep hrep more
  rw [readRef_ok hrep']
  exact ⟨e', he', by omega, by rw [← g3]; exact hv⟩

/-- C06: once `l` has been evicted the reference dangles, and it does so for ever, even if `l` is
put again. -/
theorem C06_dangles {n : Nat} (hn : 0 < n) (calls : List (Call L V)) {l : L} {v : V} {r : Nat}
    {c1 : Cache L V} (hg : get (run (empty n) calls).2 l = (.ok (v, r), c1))
    (more : List (Call L V)) (hev : hasLabel (run c1 more).2 l = false)
    (later : List (Call L V)) :
    readRef (run (run c1 more).2 later).2 r = .ub .dangling := by
  obtain ⟨s, h1, _, _⟩ := run_inv hn calls
  have hc1 : c1 = (call (run (empty n) calls).2 (.get l)).2 := by simp [call, hg]
  have hrep : Rep c1 _ := hc1 ▸ (call_refine h1 (.get l)).2
  obtain ⟨e, he, hel, hr, hv⟩ := get_ok hg
  -- an element with node `r` always carries the label of `e`
  have key : ∀ more : List (Call L V), r < (run c1 more).2.nextNode ∧
      ∀ x ∈ (run c1 more).2.elements, x.2.node = r → x.1 = e.1 := by
    intro more
    induction more using snoc_induction with
    | nil =>
      refine ⟨by rw [← hr]; exact hrep.fresh e he, fun x hx hxr => ?_⟩
      rw [hrep.node_inj hx he (by omega)]
    | snoc more cl ih =>
      obtain ⟨s', h'⟩ := run_rep hrep more
      rw [run_snoc]
      have hs := call_nodeStep h' cl
      refine ⟨Nat.lt_of_lt_of_le ih.1 hs.next, fun x hx hxr => ?_⟩
      rcases hs.old x hx with h1 | ⟨e', he', h1, h2, _⟩
      · have := ih.1; omega
      · rw [← h2]; exact ih.2 e' he' (by omega)
  obtain ⟨s', hrep'⟩ := run_rep hrep more
  rw [readRef_dangling]
  refine (node_gone hrep' (key more).1 (fun x hx hxr => ?_) later).2
  have := (key more).2 x hx hxr
  have hx' := hasLabel_of_mem hx
  rw [this, hasLabel_congr _ hel, hev] at hx'
  simp at hx'

/-- C06 (refuted): passing the reference returned by `get` straight to `put` can read a destroyed
object, because `put` evicts before it copies its argument. Already with capacity 1. -/
theorem C06_putRef_refuted :
    ∃ (n : Nat) (calls : List (Call Nat Nat)) (l l' : Nat) (v r : Nat) (c1 : Cache Nat Nat),
      0 < n ∧ get (run (empty n) calls).2 l = (.ok (v, r), c1) ∧ hasLabel c1 l' = false ∧
      (put c1 l' (.ref r) none).1 = .ub .dangling := by
  refine ⟨1, [.put 1 10], 1, 2, 10, 0, ⟨1, [(1, ⟨0, 10, 0⟩)], 1⟩, by decide, rfl, by decide, by decide⟩

/-- C06 (the precise extent): with a live reference `r` to the value `v` of label `k`, `put l' r`
behaves as `put l' v`, except when the cache is full and `k` is the least recently used label; then
(and only then) it is undefined behaviour. -/
theorem C06_putRef_partial {n : Nat} (hn : 0 < n) (calls : List (Call L V)) {l' : L} {r : Nat} {v : V}
    (hr : readRef (run (empty n) calls).2 r = .ok v)
    (hl : hasLabel (run (empty n) calls).2 l' = false) :
    ∃ k, (call (run (empty n) calls).2 (.get k)).1 = .ok (.val v) ∧
      (if currentSize (run (empty n) calls).2 = n ∧
          age (run (empty n) calls).2 k = .ok (n - 1)
       then (put (run (empty n) calls).2 l' (.ref r) none).1 = .ub .dangling
       else put (run (empty n) calls).2 l' (.ref r) none =
         put (run (empty n) calls).2 l' (.ext v) none) := by
  obtain ⟨s, h1, _, h3⟩ := run_inv hn calls
  generalize (run (empty n) calls).2 = c at *
  obtain ⟨e, he, hnode, hval⟩ := (readRef_ok h1).1 hr
  have hfind : OMap.find e.1 c.elements = some e := (OMap.find_eq_some_iff h1.sorted).2 ⟨he, by simp⟩
  have hage : age c e.1 = .ok e.2.age := by unfold age; rw [hfind]
  refine ⟨e.1, by simp [call, get, hfind, hval], ?_⟩
  have hmax : c.maximumSize = n := by rw [h1.max, h3]
  have hle := h1.len
  have hlen := h1.length_eq
  rw [hage]
  simp only [Res.ok.injEq]
  by_cases hcond : currentSize c = n ∧ e.2.age = n - 1
  · rw [if_pos hcond]
    unfold currentSize at hcond
    have hmr := makeRoom_full h1 (by omega) he (by omega)
    have : (Arg.ref r : Arg V).read ((incrementAll c.elements).filter fun x => x.2.node ≠ e.2.node)
        = .ub .dangling := by
      rw [read_dangling]
      intro x hx
      have := (List.mem_filter.1 hx).2
      simp at this; omega
    simp only [put, hl, hmr, this, Bool.false_eq_true, if_false]
  · rw [if_neg hcond]
    obtain ⟨es, hes, hroom⟩ := makeRoom_room h1
    have hmem : ∃ x ∈ es, x.2.node = r ∧ x.2.value = v := by
      by_cases hlt : c.elements.length < c.maximumSize
      · simp only [makeRoom, hlt, if_true, Res.ok.injEq] at hes
        rw [← hes]
        exact ⟨(e.1, { e.2 with age := e.2.age + 1 }), List.mem_map_of_mem he, hnode, hval⟩
      · obtain ⟨o, ho, hoa, hou, _⟩ := oldest h1 hlt
        have hmr := makeRoom_full h1 hlt ho hoa
        rw [hmr] at hes
        simp only [Res.ok.injEq] at hes
        rw [← hes]
        refine ⟨(e.1, { e.2 with age := e.2.age + 1 }), List.mem_filter.2 ⟨List.mem_map_of_mem he, ?_⟩,
          hnode, hval⟩
        simp only [decide_eq_true_eq]
        intro hn'
        have := h1.node_inj he ho hn'
        subst this
        exact hcond ⟨by unfold currentSize; omega, by omega⟩
    have hread : (Arg.ref r : Arg V).read es = .ok v := (read_ok hroom.nodes).2 hmem
    have hread' : (Arg.ext v : Arg V).read es = .ok v := rfl
    simp only [put, hl, hes, hread, hread', Bool.false_eq_true, if_false]

/-- A live reference, both when its label is the least recently used of a full cache and when it
is not. -/
example : readRef (run (empty 2) demo).2 0 = .ok 10 ∧ readRef (run (empty 2) demo).2 2 = .ok 30 ∧
    hasLabel (run (empty 2) demo).2 7 = false ∧ age (run (empty 2) demo).2 1 = .ok 1 ∧
    (put (run (empty 2) demo).2 7 (.ref 0) none).1 = .ub .dangling ∧
    (call (put (run (empty 2) demo).2 7 (.ref 2) none).2 (.get 7)).1 = .ok (.val 30) := by decide
/-- `C06_stable` and `C06_dangles` apply: take a reference to 1; it survives a put, then 1 is
evicted. -/
example : (get (run (empty 2) (demo.take 2)).2 1).1 = .ok (10, 0) ∧
    StaysPresent (get (run (empty 2) (demo.take 2)).2 1).2 1 [.put 3 30] ∧
    hasLabel (run (get (run (empty 2) (demo.take 2)).2 1).2 [.put 3 30, .put 4 40]).2 1 = false := by
  refine ⟨by decide, fun k => ?_, by decide⟩
  match k with
  | 0 => decide
  | k + 1 =>
    have : ([.put 3 30] : List (Call Nat Nat)).take (k + 1) = [.put 3 30] := by simp
    rw [this]; decide

/-! ## C07 -/

/-- A call of a client program in which the insertion step of a `put` may throw. -/
inductive FCall (L : Type u) (V : Type v) where
  | plain (cl : Call L V)
  | putThrows (l : L) (v : V) (e : Exn)

/-- One such call. -/
def fcall (c : Cache L V) : FCall L V → Res (Out V) × Cache L V
  | .plain cl => call c cl
  | .putThrows l v e =>
    match put c l (.ext v) (some e) with
    | (.ok _, c') => (.ok .unit, c')
    | (.exn e, c') => (.exn e, c')
    | (.ub k, c') => (.ub k, c')
    | (.abort, c') => (.abort, c')

/-- Calls one after the other, trace newest first. -/
def frun (c : Cache L V) (calls : List (FCall L V)) :
    List (FCall L V × Res (Out V)) × Cache L V :=
  calls.foldl (fun s cl => let r := fcall s.2 cl; ((cl, r.1) :: s.1, r.2)) ([], c)

/-- The value of the last successful put of `l`. -/
def flastPut : List (FCall L V × Res (Out V)) → L → Option V
  | [], _ => none
  | (.plain (.put k v), .ok _) :: older, l =>
    if Cmp.equiv k l then some v else flastPut older l
  | _ :: older, l => flastPut older l

/-- C07 (refuted): one insertion that throws, then two ordinary puts of new labels, and the second
of them erases `end()`: undefined behaviour. -/
theorem C07_ub_refuted :
    ∃ (n : Nat) (calls : List (FCall Nat Nat)) (l v : Nat), 0 < n ∧
      (∀ ev ∈ (frun (empty n) calls).1, ev.2.isUB = false) ∧
      (fcall (frun (empty n) calls).2 (.plain (.put l v))).1 = .ub .eraseEnd := by
  refine ⟨2, [.plain (.put 1 10), .plain (.put 2 20), .putThrows 3 30 .badAlloc, .plain (.put 4 40)],
    5, 50, by decide, by decide, by decide⟩

/-- C07 (refuted): with capacity 3, after one insertion that throws, a later put evicts label 3
although label 2 was used longer ago. -/
theorem C07_order_refuted :
    ∃ (calls : List (FCall Nat Nat)),
      calls = [.plain (.put 1 10), .plain (.put 2 20), .plain (.put 3 30),
        .putThrows 4 40 .badAlloc, .plain (.put 5 50)] ∧
      hasLabel (frun (empty 3) calls).2 2 = true ∧ hasLabel (frun (empty 3) calls).2 3 = true ∧
      (fcall (frun (empty 3) calls).2 (.plain (.put 6 60))).1 = .ok .unit ∧
      hasLabel (fcall (frun (empty 3) calls).2 (.plain (.put 6 60))).2 2 = true ∧
      hasLabel (fcall (frun (empty 3) calls).2 (.plain (.put 6 60))).2 3 = false := by
  refine ⟨_, rfl, by decide, by decide, by decide, by decide, by decide⟩

/-- What survives any number of throwing insertions. -/
structure FInv (t : List (FCall L V × Res (Out V))) (n : Nat) (c : Cache L V) : Prop where
  max : c.maximumSize = n
  len : c.elements.length ≤ n
  sorted : OMap.Sorted c.elements
  values : ∀ e ∈ c.elements, flastPut t e.1 = some e.2.value
  nodes : (c.elements.map (fun e => e.2.node)).Nodup
  fresh : ∀ e ∈ c.elements, e.2.node < c.nextNode

theorem flastPut_congr (t : List (FCall L V × Res (Out V))) {a b : L} (h : Cmp.equiv a b = true) :
    flastPut t a = flastPut t b := by
  induction t with
  | nil => simp [flastPut]
  | cons ev older ih =>
    obtain ⟨cl, r⟩ := ev
    cases cl with
    | putThrows => simpa [flastPut] using ih
    | plain cl => cases cl <;> cases r <;> simp only [flastPut, Cmp.equiv_of_equiv_right h, ih]

/-- What room-making does to the elements, without any assumption on the ages. -/
theorem makeRoom_weak {n : Nat} {es : List (L × Entry V)} (hn : 0 < n) (hmax : c.maximumSize = n)
    (hlen : c.elements.length ≤ n) (hes : makeRoom c = .ok es) :
    es.length < n ∧ es.Sublist (incrementAll c.elements) := by
  unfold makeRoom at hes
  by_cases hlt : c.elements.length < c.maximumSize
  · simp only [hlt, if_true, Res.ok.injEq] at hes
    subst hes
    simp only [incrementAll, List.length_map]
    exact ⟨by omega, List.Sublist.refl _⟩
  · simp only [hlt, if_false, scan_snd] at hes
    cases hsc : (scan c.maximumSize c.elements none).1 with
    | none => rw [hsc] at hes; simp [eraseNode] at hes
    | some m =>
      rw [hsc] at hes
      simp only [eraseNode, Res.ok.injEq] at hes
      subst hes
      refine ⟨?_, List.filter_sublist⟩
      -- the erased node is one of the elements
      have aux : ∀ (es : List (L × Entry V)) (r : Option Nat) (k : Nat),
          (scan k es r).1 = some m → r = some m ∨ ∃ e ∈ es, e.2.node = m := by
        intro es
        induction es with
        | nil => intro r k h; left; simpa [scan] using h
        | cons x t ih =>
          intro r k h
          obtain ⟨l, e⟩ := x
          simp only [scan] at h
          rcases ih _ _ h with h' | ⟨e', he', h'⟩
          · by_cases hk : e.age = k - 1
            · simp only [hk, if_true, Option.some.injEq] at h'
              exact .inr ⟨(l, e), by simp, h'⟩
            · simp only [hk, if_false] at h'; exact .inl h'
          · exact .inr ⟨e', List.mem_cons_of_mem _ he', h'⟩
      rcases aux _ _ _ hsc with h | ⟨e, he, hem⟩
      · simp at h
      · have h1 : ((incrementAll c.elements).filter fun x => decide (x.2.node ≠ m)).length <
            (incrementAll c.elements).length := by
          rw [List.length_filter_lt_length_iff_exists]
          exact ⟨(e.1, { e.2 with age := e.2.age + 1 }), List.mem_map_of_mem he, by simp [hem]⟩
        have h2 : (incrementAll c.elements).length = c.elements.length := by simp [incrementAll]
        omega

theorem FInv.room {t : List (FCall L V × Res (Out V))} {n : Nat} {es : List (L × Entry V)}
    (h : FInv t n c) (hn : 0 < n) (hes : makeRoom c = .ok es) :
    FInv t n { c with elements := es } ∧ es.length < n ∧
    ∀ l, hasLabel c l = false → ∀ e ∈ es, Cmp.equiv e.1 l = false := by
  obtain ⟨hlt, hsub⟩ := makeRoom_weak hn h.max h.len hes
  refine ⟨⟨h.max, by show es.length ≤ n; omega, ?_, ?_, ?_, ?_⟩, hlt, ?_⟩
  · exact OMap.sorted_sublist (map_sorted_congr (incrementAll_keys _) h.sorted) hsub
  · intro e he
    obtain ⟨e', he', h1, h2, _⟩ := incrementAll_sub (hsub.mem he)
    rw [← h1, ← h2]; exact h.values e' he'
  · exact (incrementAll_nodes c.elements ▸ h.nodes : ((incrementAll c.elements).map _).Nodup).sublist
      (hsub.map _)
  · exact fun e he => fresh_of_nodes (incrementAll_nodes _) h.fresh e (hsub.mem he)
  · intro l hl e he
    obtain ⟨e', he', h1, _⟩ := incrementAll_sub (hsub.mem he)
    cases hq : Cmp.equiv e.1 l
    · rfl
    · have : hasLabel c l = true := by
        rw [← hasLabel_congr c hq, ← h1]; exact hasLabel_of_mem he'
      rw [this] at hl; simp at hl

theorem makeRoom_not_throw (c : Cache L V) :
    (∃ es, makeRoom c = .ok es) ∨ makeRoom c = .ub .eraseEnd := by
  unfold makeRoom
  split
  · exact .inl ⟨_, rfl⟩
  · simp only []
    cases (scan c.maximumSize c.elements none).1 <;> simp [eraseNode]

theorem FInv.step {t : List (FCall L V × Res (Out V))} {n : Nat} (h : FInv t n c) (hn : 0 < n)
    (cl : FCall L V) (hub : (fcall c cl).1.isUB = false) :
    FInv ((cl, (fcall c cl).1) :: t) n (fcall c cl).2 := by
  cases cl with
  | putThrows l v e =>
    simp only [fcall, put] at hub ⊢
    cases hh : hasLabel c l with
    | true => exact ⟨h.max, h.len, h.sorted, h.values, h.nodes, h.fresh⟩
    | false =>
      rcases makeRoom_not_throw c with ⟨es, hes⟩ | hes
      · have := (h.room hn hes).1
        simp only [hes, Arg.read, Bool.false_eq_true, if_false]
        exact ⟨this.max, this.len, this.sorted, this.values, this.nodes, this.fresh⟩
      · simp [hh, hes] at hub
  | plain cl =>
    cases cl with
    | hasLabel _ => exact ⟨h.max, h.len, h.sorted, h.values, h.nodes, h.fresh⟩
    | currentSize => exact ⟨h.max, h.len, h.sorted, h.values, h.nodes, h.fresh⟩
    | maximumSize => exact ⟨h.max, h.len, h.sorted, h.values, h.nodes, h.fresh⟩
    | age l =>
      simp only [fcall, call]
      split <;> exact ⟨h.max, h.len, h.sorted, h.values, h.nodes, h.fresh⟩
    | get l =>
      simp only [fcall, call, get]
      cases hf : OMap.find l c.elements with
      | none => exact ⟨h.max, h.len, h.sorted, h.values, h.nodes, h.fresh⟩
      | some e0 =>
        have hst := get_nodeStep c l
        simp only [get, hf] at hst
        refine ⟨h.max, by simpa [resetAge, bumpYounger] using h.len,
          map_sorted_congr (resetAge_bump_keys ..) h.sorted, ?_, ?_, ?_⟩
        · intro e he
          show flastPut t e.1 = _
          rcases hst.old e he with h1 | ⟨e', he', _, h1, h2⟩
          · have h3 := resetAge_bump_nodes e0.2.node e0.2.age c.elements
            have h4 : e.2.node ∈ c.elements.map (fun e => e.2.node) := by
              rw [← h3]; exact List.mem_map_of_mem he
            obtain ⟨e', he', h5⟩ := List.mem_map.1 h4
            have := h.fresh e' he'; omega
          · rw [← h1, ← h2]; exact h.values e' he'
        · show ((resetAge e0.2.node (bumpYounger e0.2.age c.elements)).map _).Nodup
          rw [resetAge_bump_nodes]; exact h.nodes
        · exact fresh_of_nodes (resetAge_bump_nodes ..) h.fresh
    | put l v =>
      simp only [fcall, call, put] at hub ⊢
      cases hh : hasLabel c l with
      | true => exact ⟨h.max, h.len, h.sorted, h.values, h.nodes, h.fresh⟩
      | false =>
        rcases makeRoom_not_throw c with ⟨es, hes⟩ | hes
        · obtain ⟨hinv, hlt, hno⟩ := h.room hn hes
          have hno := hno l hh
          have hperm := OMap.insert_perm (v := (⟨0, v, c.nextNode⟩ : Entry V)) hno
          simp only [hes, Arg.read, Bool.false_eq_true, if_false]
          refine ⟨h.max, ?_, OMap.sorted_insert hinv.sorted, ?_, ?_, ?_⟩
          · show (OMap.insert _ _ _).length ≤ n
            rw [hperm.length_eq]; simp only [List.length_cons]; omega
          · intro e he
            rcases List.mem_cons.1 (hperm.mem_iff.1 he) with rfl | he
            · simp [flastPut]
            · have h1 := hno e he
              rw [Cmp.equiv_comm] at h1
              simp only [flastPut, h1, Bool.false_eq_true, if_false]
              exact hinv.values e he
          · refine (hperm.map (fun e => e.2.node)).nodup_iff.2 ?_
            simp only [List.map_cons, List.nodup_cons]
            refine ⟨fun hm => ?_, hinv.nodes⟩
            obtain ⟨e, he, hn'⟩ := List.mem_map.1 hm
            have : e.2.node < c.nextNode := hinv.fresh e he
            omega
          · intro e he
            rcases List.mem_cons.1 (hperm.mem_iff.1 he) with rfl | he
            · show c.nextNode < c.nextNode + 1; omega
            · have : e.2.node < c.nextNode := hinv.fresh e he
              show _ < c.nextNode + 1; omega
        · simp [hh, hes] at hub

theorem frun_snoc (c : Cache L V) (calls : List (FCall L V)) (cl : FCall L V) :
    frun c (calls ++ [cl]) =
      ((cl, (fcall (frun c calls).2 cl).1) :: (frun c calls).1, (fcall (frun c calls).2 cl).2) := by
  simp [frun]

theorem frun_inv {n : Nat} (hn : 0 < n) (calls : List (FCall L V))
    (hub : ∀ ev ∈ (frun (empty n) calls).1, ev.2.isUB = false) :
    FInv (frun (empty n) calls).1 n (frun (empty n) calls).2 := by
  induction calls using snoc_induction with
  | nil => exact ⟨rfl, by simp [frun, empty], by simp [frun, empty, OMap.Sorted],
      by simp [frun, empty], by simp [frun, empty], by simp [frun, empty]⟩
  | snoc calls cl ih =>
    rw [frun_snoc] at hub ⊢
    exact (ih fun ev hev => hub ev (List.mem_cons_of_mem _ hev)).step hn cl
      (hub (cl, (fcall (frun (empty n) calls).2 cl).1) (List.mem_cons_self ..))

/-- C07 (what does hold): in any history with throwing insertions and no undefined behaviour so
far, the size bound holds and every present label still yields the value last put for it. -/
theorem C07_contents_partial {n : Nat} (hn : 0 < n) (calls : List (FCall L V))
    (hub : ∀ ev ∈ (frun (empty n) calls).1, ev.2.isUB = false) :
    currentSize (frun (empty n) calls).2 ≤ n ∧
    ∀ l, hasLabel (frun (empty n) calls).2 l = true →
      ∃ v, flastPut (frun (empty n) calls).1 l = some v ∧
        (fcall (frun (empty n) calls).2 (.plain (.get l))).1 = .ok (.val v) := by
  have h := frun_inv hn calls hub
  refine ⟨h.len, fun l hl => ?_⟩
  unfold hasLabel at hl
  cases hf : OMap.find l (frun (empty n) calls).2.elements with
  | none => rw [hf] at hl; simp at hl
  | some e =>
    have he := OMap.find_some_mem hf
    exact ⟨e.2.value, by rw [← flastPut_congr _ he.2]; exact h.values e he.1, by simp [fcall, call, get, hf]⟩

/-- C07 (what does hold): a put whose insertion throws adds nothing, removes at most one label,
and only from a full cache, whatever happened before. -/
theorem C07_throwingPut_partial {n : Nat} (hn : 0 < n) (calls : List (FCall L V))
    (hub : ∀ ev ∈ (frun (empty n) calls).1, ev.2.isUB = false) (l : L) (v : V) (e : Exn)
    (hl : hasLabel (frun (empty n) calls).2 l = false)
    (hok : (fcall (frun (empty n) calls).2 (.putThrows l v e)).1.isUB = false) :
    (fcall (frun (empty n) calls).2 (.putThrows l v e)).1 = .exn e ∧
    (∀ x, hasLabel (fcall (frun (empty n) calls).2 (.putThrows l v e)).2 x = true →
      hasLabel (frun (empty n) calls).2 x = true) ∧
    (currentSize (frun (empty n) calls).2 < n →
      ∀ x, hasLabel (fcall (frun (empty n) calls).2 (.putThrows l v e)).2 x =
        hasLabel (frun (empty n) calls).2 x) ∧
    (∀ x y, hasLabel (frun (empty n) calls).2 x = true → hasLabel (frun (empty n) calls).2 y = true →
      hasLabel (fcall (frun (empty n) calls).2 (.putThrows l v e)).2 x = false →
      hasLabel (fcall (frun (empty n) calls).2 (.putThrows l v e)).2 y = false →
      Cmp.equiv x y = true) := by
  have h := frun_inv hn calls hub
  generalize (frun (empty n) calls).2 = c at *
  simp only [fcall, put, hl, Bool.false_eq_true, if_false] at hok ⊢
  rcases makeRoom_not_throw c with ⟨es, hes⟩ | hes
  · simp only [hes, Arg.read]
    obtain ⟨_, hsub⟩ := makeRoom_weak hn h.max h.len hes
    have hincr : ∀ x, hasLabel { c with elements := incrementAll c.elements } x = hasLabel c x := by
      intro x
      unfold hasLabel OMap.find incrementAll
      rw [List.find?_map]
      show (Option.map _ (c.elements.find? fun e => Cmp.equiv e.1 x)).isSome = _
      simp
    refine ⟨trivial, fun x hx => ?_, fun hroom x => ?_, fun x y hx hy hx' hy' => ?_⟩
    · obtain ⟨y, hy, hyx⟩ := hasLabel_true hx
      rw [← hincr]
      unfold hasLabel; rw [OMap.find_isSome]
      exact ⟨y, hsub.mem hy, hyx⟩
    · have : es = incrementAll c.elements := by
        unfold makeRoom at hes
        have hm := h.max
        unfold currentSize at hroom
        rw [if_pos (by omega)] at hes
        simpa using hes.symm
      rw [this]; exact hincr x
    · obtain ⟨ex, hex, hxx⟩ := hasLabel_true hx
      obtain ⟨ey, hey, hyy⟩ := hasLabel_true hy
      -- both were removed, so both are the erased node
      have gone : ∀ z ∈ c.elements, hasLabel { c with elements := es } z.1 = false →
          ∃ m, (scan c.maximumSize c.elements none).1 = some m ∧ z.2.node = m := by
        intro z hz hz'
        unfold makeRoom at hes
        by_cases hlt : c.elements.length < c.maximumSize
        · rw [if_pos hlt] at hes
          have : es = incrementAll c.elements := by simpa using hes.symm
          rw [this, hincr, hasLabel_of_mem hz] at hz'; simp at hz'
        · simp only [hlt, if_false, scan_snd] at hes
          cases hsc : (scan c.maximumSize c.elements none).1 with
          | none => rw [hsc] at hes; simp [eraseNode] at hes
          | some m =>
            rw [hsc] at hes
            simp only [eraseNode, Res.ok.injEq] at hes
            refine ⟨m, rfl, ?_⟩
            cases Nat.decEq z.2.node m with
            | isTrue h => exact h
            | isFalse hne =>
              exfalso
              have hmem : (z.1, { z.2 with age := z.2.age + 1 }) ∈ es := by
                rw [← hes, List.mem_filter]
                exact ⟨List.mem_map_of_mem (f := fun e : L × Entry V =>
                  (e.1, { e.2 with age := e.2.age + 1 })) hz, by simpa using hne⟩
              have : hasLabel { c with elements := es } z.1 = true :=
                hasLabel_of_mem (c := { c with elements := es })
                  (e := (z.1, { z.2 with age := z.2.age + 1 })) hmem
              rw [this] at hz'; simp at hz'
      rw [← hasLabel_congr _ hxx] at hx'
      rw [← hasLabel_congr _ hyy] at hy'
      obtain ⟨m, hm, h1⟩ := gone ex hex hx'
      obtain ⟨m', hm', h2⟩ := gone ey hey hy'
      rw [hm] at hm'; cases hm'
      have : ex = ey := nodup_map_inj h.nodes hex hey (by omega)
      subst this
      exact Cmp.equiv_trans (Cmp.equiv_symm hxx) hyy
  · simp [hes] at hok

/-- C07 (what does hold): a cache of capacity 1 has no undefined behaviour, whatever throws. -/
theorem C07_capacityOne_partial (calls : List (FCall L V)) :
    ∀ ev ∈ (frun (empty 1) calls).1, ev.2.isUB = false := by
  have key : (∀ ev ∈ (frun (empty 1 : Cache L V) calls).1, ev.2.isUB = false) ∧
      (frun (empty 1 : Cache L V) calls).2.maximumSize = 1 ∧
      ((frun (empty 1 : Cache L V) calls).2.elements = [] ∨
       ∃ l e, (frun (empty 1 : Cache L V) calls).2.elements = [(l, e)] ∧ e.age = 0) := by
    induction calls using snoc_induction with
    | nil => exact ⟨by simp [frun], rfl, .inl rfl⟩
    | snoc calls cl ih =>
      obtain ⟨ih1, ih2, ih3⟩ := ih
      rw [frun_snoc]
      generalize (frun (empty 1) calls).2 = c at *
      have hmr : ∃ es, makeRoom c = .ok es ∧ es = [] := by
        rcases ih3 with h | ⟨l, e, h, ha⟩
        · exact ⟨_, by simp [makeRoom, h, ih2, incrementAll], rfl⟩
        · refine ⟨_, ?_, rfl⟩
          simp [makeRoom, h, ih2, scan, ha, eraseNode]
      obtain ⟨es, hes, hnil⟩ := hmr
      subst hnil
      suffices (fcall c cl).1.isUB = false ∧ (fcall c cl).2.maximumSize = 1 ∧
          ((fcall c cl).2.elements = [] ∨ ∃ l e, (fcall c cl).2.elements = [(l, e)] ∧ e.age = 0) by
        refine ⟨fun ev hev => ?_, this.2⟩
        rcases List.mem_cons.1 hev with rfl | hev
        · exact this.1
        · exact ih1 ev hev
      cases cl with
      | putThrows l v e =>
        simp only [fcall, put]
        cases hasLabel c l with
        | true => exact ⟨rfl, ih2, ih3⟩
        | false => simp [hes, Arg.read, ih2]
      | plain cl =>
        cases cl with
        | hasLabel l => exact ⟨rfl, ih2, ih3⟩
        | currentSize => exact ⟨rfl, ih2, ih3⟩
        | maximumSize => exact ⟨rfl, ih2, ih3⟩
        | age l =>
          simp only [fcall, call, age]
          cases OMap.find l c.elements <;> exact ⟨rfl, ih2, ih3⟩
        | get l =>
          simp only [fcall, call, get]
          cases hf : OMap.find l c.elements with
          | none => exact ⟨rfl, ih2, ih3⟩
          | some e0 =>
            refine ⟨rfl, ih2, ?_⟩
            rcases ih3 with h | ⟨l', e, h, ha⟩
            · left; simp [h, resetAge, bumpYounger]
            · right
              have he := (OMap.find_some_mem hf).1
              rw [h, List.mem_singleton] at he
              subst he
              exact ⟨l', { e with age := 0 }, by simp [h, resetAge, bumpYounger], rfl⟩
        | put l v =>
          simp only [fcall, call, put]
          cases hasLabel c l with
          | true => exact ⟨rfl, ih2, ih3⟩
          | false =>
            refine ⟨by simp [hes, Arg.read], by simp [hes, Arg.read, ih2], .inr ?_⟩
            exact ⟨l, ⟨0, v, c.nextNode⟩, by simp [hes, Arg.read, OMap.insert], rfl⟩
  exact key.1

/-- The hypotheses of the partial results are met by a history with a throwing insertion. -/
example : let calls : List (FCall Nat Nat) :=
      [.plain (.put 1 10), .plain (.put 2 20), .putThrows 3 30 .badAlloc]
    (∀ ev ∈ (frun (empty 2) calls).1, ev.2.isUB = false) ∧
    hasLabel (frun (empty 2) calls).2 2 = true ∧ hasLabel (frun (empty 2) calls).2 1 = false ∧
    hasLabel (frun (empty 2) calls).2 4 = false ∧
    (fcall (frun (empty 2) calls).2 (.putThrows 4 1 .badAlloc)).1 = .exn .badAlloc := by decide

end Helper.LRU
