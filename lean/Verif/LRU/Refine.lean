import Verif.LRU.Lemmas
set_option linter.unusedSectionVars false
namespace Helper.LRU

variable {L : Type u} {V : Type v} [Cmp L] [StrictWeak L]
variable {c : Cache L V} {s : Spec L V}

theorem resetAge_bump_view (h : Rep c s) {e : L × Entry V} (he : e ∈ c.elements) :
    (resetAge e.2.node (bumpYounger e.2.age c.elements)).map view =
      (c.elements.map view).map (fun x => (x.1, (if x.2.1 < e.2.age then x.2.1 + 1
        else if x.2.1 = e.2.age then 0 else x.2.1), x.2.2)) := by
  unfold resetAge bumpYounger
  rw [List.map_map, List.map_map, List.map_map]
  refine List.map_congr_left fun x hx => ?_
  simp only [Function.comp, view]
  by_cases hlt : x.2.age < e.2.age
  · have hne : x.2.node ≠ e.2.node := fun hn => by
      have := h.node_inj hx he hn; subst this; omega
    simp [hlt, hne]
  · by_cases heq : x.2.age = e.2.age
    · have hxe := h.age_inj hx he heq
      subst hxe; simp
    · have hne : x.2.node ≠ e.2.node := fun hn => by
        have := h.node_inj hx he hn; subst this; exact heq rfl
      simp [hlt, heq, hne]

theorem map_sorted_congr {es es' : List (L × Entry V)}
    (h : es'.map Prod.fst = es.map Prod.fst) (hs : OMap.Sorted es) : OMap.Sorted es' := by
  unfold OMap.Sorted at *
  rw [← List.pairwise_map (f := Prod.fst) (R := fun a b => Cmp.lt a b = true)] at *
  rw [h]; exact hs

theorem resetAge_bump_keys (n a : Nat) (es : List (L × Entry V)) :
    (resetAge n (bumpYounger a es)).map Prod.fst = es.map Prod.fst := by
  unfold resetAge bumpYounger
  rw [List.map_map, List.map_map]
  refine List.map_congr_left fun x _ => ?_
  simp only [Function.comp]
  split <;> split <;> rfl

theorem resetAge_bump_nodes (n a : Nat) (es : List (L × Entry V)) :
    (resetAge n (bumpYounger a es)).map (fun e => e.2.node) = es.map (fun e => e.2.node) := by
  unfold resetAge bumpYounger
  rw [List.map_map, List.map_map]
  refine List.map_congr_left fun x _ => ?_
  simp only [Function.comp]
  split <;> split <;> rfl

theorem incrementAll_nodes (es : List (L × Entry V)) :
    (incrementAll es).map (fun e => e.2.node) = es.map (fun e => e.2.node) := by
  unfold incrementAll; rw [List.map_map]; rfl

theorem incrementAll_keys (es : List (L × Entry V)) :
    (incrementAll es).map Prod.fst = es.map Prod.fst := by
  unfold incrementAll; rw [List.map_map]; rfl

theorem incrementAll_view (es : List (L × Entry V)) :
    (incrementAll es).map view = (es.map view).map (fun x => (x.1, x.2.1 + 1, x.2.2)) := by
  unfold incrementAll; rw [List.map_map, List.map_map]; rfl

theorem fresh_of_nodes {es es' : List (L × Entry V)} {n : Nat}
    (h : es'.map (fun e => e.2.node) = es.map (fun e => e.2.node))
    (hf : ∀ e ∈ es, e.2.node < n) : ∀ e ∈ es', e.2.node < n := by
  intro e he
  have : e.2.node ∈ es'.map (fun e => e.2.node) := List.mem_map_of_mem he
  rw [h, List.mem_map] at this
  obtain ⟨e', he', hn⟩ := this
  rw [← hn]; exact hf e' he'

/-- `get` refines the recency list's move-to-front. -/
theorem get_refine (h : Rep c s) (l : L) :
    (∃ v n, (get c l).1 = .ok (v, n) ∧ (s.call (.get l)).1 = .ok (.val v) ∧
      Rep (get c l).2 (s.call (.get l)).2) ∨
    ((get c l).1 = .exn .runtimeError ∧ (get c l).2 = c ∧
      s.call (.get l) = (.exn .runtimeError, s)) := by
  unfold get
  cases hf : OMap.find l c.elements with
  | none =>
    right
    rw [h.find_none] at hf
    have : s.items.find? (fun p => Cmp.equiv p.1 l) = none := by simpa using hf
    simp [Spec.call, this]
  | some e =>
    left
    obtain ⟨a, b, hs, ha, hq, hp⟩ := h.find_some hf
    have he := (OMap.find_some_mem hf).1
    obtain ⟨h1, h2, h3⟩ := spec_find_split hs hq hp
    refine ⟨e.2.value, e.2.node, rfl, by simp [Spec.call, h1], ?_⟩
    have hlen := h.len
    simp only [Spec.call, h1, h2]
    refine ⟨h.max, h.pos, ?_, ?_, ?_, ?_, ?_⟩
    · rw [hs] at hlen; simp at hlen ⊢; omega
    · show ((resetAge e.2.node (bumpYounger e.2.age c.elements)).map view).Perm _
      rw [resetAge_bump_view h he]
      refine (h.perm.map _).trans ?_
      rw [hs, ← ha]
      exact aged_touch a b _
    · exact map_sorted_congr (resetAge_bump_keys ..) h.sorted
    · show ((resetAge e.2.node (bumpYounger e.2.age c.elements)).map _).Nodup
      rw [resetAge_bump_nodes]; exact h.nodes
    · exact fresh_of_nodes (resetAge_bump_nodes ..) h.fresh

theorem age_refine (h : Rep c s) (l : L) :
    (∃ i, age c l = .ok i ∧ s.call (.age l) = (.ok (.num i), s)) ∨
    (age c l = .exn .runtimeError ∧ s.call (.age l) = (.exn .runtimeError, s)) := by
  unfold age
  cases hf : OMap.find l c.elements with
  | none =>
    right
    rw [h.find_none] at hf
    have : s.items.findIdx? (fun p => Cmp.equiv p.1 l) = none := by simpa using hf
    simp [Spec.call, this]
  | some e =>
    left
    obtain ⟨a, b, hs, ha, hq, hp⟩ := h.find_some hf
    obtain ⟨_, _, h3⟩ := spec_find_split hs hq hp
    exact ⟨e.2.age, rfl, by simp [Spec.call, h3, ha]⟩

/-- What the cache looks like after room has been made, before the insertion. -/
structure Room (c : Cache L V) (s : Spec L V) (es : List (L × Entry V)) : Prop where
  perm : (es.map view).Perm (aged 1 (s.items.take (s.cap - 1)))
  sorted : OMap.Sorted es
  nodes : (es.map (fun e => e.2.node)).Nodup
  fresh : ∀ e ∈ es, e.2.node < c.nextNode
  sub : ∀ e ∈ es, ∃ e' ∈ c.elements, e'.1 = e.1 ∧ e'.2.value = e.2.value ∧
    e'.2.node = e.2.node ∧ e'.2.age + 1 = e.2.age

theorem incrementAll_sub {es : List (L × Entry V)} {e} (he : e ∈ incrementAll es) :
    ∃ e' ∈ es, e'.1 = e.1 ∧ e'.2.value = e.2.value ∧ e'.2.node = e.2.node ∧
      e'.2.age + 1 = e.2.age := by
  unfold incrementAll at he
  obtain ⟨e', he', rfl⟩ := List.mem_map.1 he
  exact ⟨e', he', rfl, rfl, rfl, rfl⟩

/-- The element evicted by a `put` on a full cache. -/
theorem oldest (h : Rep c s) (hfull : ¬ c.elements.length < c.maximumSize) :
    ∃ e ∈ c.elements, e.2.age = c.maximumSize - 1 ∧
      (∀ e' ∈ c.elements, e'.2.age = c.maximumSize - 1 → e' = e) ∧
      s.items = s.items.take (s.cap - 1) ++ [(e.1, e.2.value)] := by
  have hl := h.length_eq
  have hm := h.max
  have hp := h.pos
  have hlen := h.len
  have hlt : s.cap - 1 < s.items.length := by omega
  obtain ⟨e, he, h1, h2, h3⟩ := h.item_mem (List.getElem?_eq_getElem hlt)
  refine ⟨e, he, by omega, fun e' he' ha => h.age_inj he' he (by omega), ?_⟩
  have : (e.1, e.2.value) = s.items[s.cap - 1] := by
    rw [h1, h3]
  rw [this, List.take_append_getElem hlt]
  rw [List.take_of_length_le (by omega)]

theorem makeRoom_full (h : Rep c s) (hfull : ¬ c.elements.length < c.maximumSize)
    {e : L × Entry V} (he : e ∈ c.elements) (ha : e.2.age = c.maximumSize - 1) :
    makeRoom c = .ok ((incrementAll c.elements).filter fun x => x.2.node ≠ e.2.node) := by
  have hsc : (scan c.maximumSize c.elements none).1 = some e.2.node :=
    scan_fst_some he ha fun e' he' ha' => by
      rw [h.age_inj he' he (by omega)]
  unfold makeRoom
  simp only [hfull, if_false, scan_snd, hsc, eraseNode]

theorem makeRoom_room (h : Rep c s) : ∃ es, makeRoom c = .ok es ∧ Room c s es := by
  by_cases hlt : c.elements.length < c.maximumSize
  · refine ⟨incrementAll c.elements, by simp [makeRoom, hlt], ?_⟩
    have hl := h.length_eq
    have hm := h.max
    refine ⟨?_, map_sorted_congr (incrementAll_keys _) h.sorted, ?_, ?_, fun e he => incrementAll_sub he⟩
    · rw [incrementAll_view, List.take_of_length_le (by omega), ← aged_map_succ]
      exact h.perm.map _
    · rw [incrementAll_nodes]; exact h.nodes
    · exact fresh_of_nodes (incrementAll_nodes _) h.fresh
  · obtain ⟨e, he, ha, hu, hs⟩ := oldest h hlt
    refine ⟨_, makeRoom_full h hlt he ha, ?_⟩
    have hpos := h.pos
    have hm := h.max
    have hlen := h.len
    have hsub : ((incrementAll c.elements).filter fun x => x.2.node ≠ e.2.node).Sublist
      (incrementAll c.elements) := List.filter_sublist
    refine ⟨?_, (OMap.sorted_sublist (map_sorted_congr (incrementAll_keys _) h.sorted) hsub), ?_, ?_, ?_⟩
    · -- the view of the remaining elements
      have h1 : ((incrementAll c.elements).filter (fun x => decide (x.2.node ≠ e.2.node))).map view
          = ((incrementAll c.elements).map view).filter (fun x => x.2.1 ≠ s.cap) := by
        rw [List.filter_map]
        congr 1
        refine List.filter_congr fun x hx => ?_
        obtain ⟨x', hx', -, -, hn, hage⟩ := incrementAll_sub hx
        simp only [Function.comp, view]
        congr 1
        have hiff : x.2.node = e.2.node ↔ x.2.age = s.cap := by
          constructor
          · intro hn'
            have := h.node_inj hx' he (by omega)
            subst this; omega
          · intro hn'
            have := h.age_inj hx' he (by omega)
            subst this; omega
        simp [hiff]
      show (List.map view _).Perm _
      rw [h1, incrementAll_view]
      have h2 := ((h.perm.map (fun x : L × Nat × V => (x.1, x.2.1 + 1, x.2.2))).filter
        (fun x => decide (x.2.1 ≠ s.cap)))
      refine h2.trans ?_
      rw [aged_map_succ]
      have h3 : (aged 1 s.items).filter (fun x => decide (x.2.1 ≠ s.cap)) =
          aged 1 (s.items.take (s.cap - 1)) := by
        conv => lhs; rw [hs]
        have hl : (s.items.take (s.cap - 1)).length = s.cap - 1 := by
          have hlc := h.length_eq
          simp; omega
        rw [aged_append, List.filter_append]
        simp only [aged, hl]
        rw [List.filter_eq_self.2, List.filter_eq_nil_iff.2, List.append_nil]
        · simp; omega
        · intro x hx
          rw [mem_aged] at hx
          obtain ⟨hx1, hx2⟩ := hx
          obtain ⟨hx3, _⟩ := List.getElem?_eq_some_iff.1 hx2
          have : x.2.1 ≠ s.cap := by omega
          simp [this]
      rw [h3]
    · exact (incrementAll_nodes c.elements ▸ h.nodes : ((incrementAll c.elements).map _).Nodup).sublist
        (hsub.map _)
    · intro x hx
      exact fresh_of_nodes (incrementAll_nodes _) h.fresh x (hsub.mem hx)
    · intro x hx; exact incrementAll_sub (hsub.mem hx)

theorem put_refine (h : Rep c s) (l : L) (v : V) :
    (∃ c', put c l (.ext v) none = (.ok (), c') ∧
      s.call (.put l v) = (.ok .unit, { s with items := (l, v) :: s.items.take (s.cap - 1) }) ∧
      Rep c' { s with items := (l, v) :: s.items.take (s.cap - 1) } ∧ s.has l = false) ∨
    (put c l (.ext v) none = (.exn .runtimeError, c) ∧
      s.call (.put l v) = (.exn .runtimeError, s) ∧ s.has l = true) := by
  cases hh : s.has l with
  | true =>
    right
    simp [put, h.has_eq, Spec.call, hh]
  | false =>
    left
    obtain ⟨es, hes, hr⟩ := makeRoom_room h
    refine ⟨{ c with elements := OMap.insert l ⟨0, v, c.nextNode⟩ es, nextNode := c.nextNode + 1 },
      by simp [put, h.has_eq, hh, hes, Arg.read], by simp [Spec.call, hh], ?_, rfl⟩
    have hno : ∀ e ∈ es, Cmp.equiv e.1 l = false := by
      intro e he
      obtain ⟨e', he', hl, -⟩ := hr.sub e he
      rw [spec_has_false] at hh
      rw [← hl]
      exact hh (e'.1, e'.2.value) (List.mem_of_getElem? (h.mem_item he'))
    have hperm := OMap.insert_perm (v := (⟨0, v, c.nextNode⟩ : Entry V)) hno
    have hpos := h.pos
    refine ⟨h.max, h.pos, ?_, ?_, OMap.sorted_insert hr.sorted, ?_, ?_⟩
    · simp only [List.length_cons, List.length_take]; omega
    · refine (hperm.map view).trans ?_
      simp only [List.map_cons, aged, view]
      exact hr.perm.cons _
    · have h1 := (hperm.map (fun e => e.2.node)).nodup_iff
      refine h1.2 ?_
      simp only [List.map_cons, List.nodup_cons]
      refine ⟨fun hm => ?_, hr.nodes⟩
      obtain ⟨e, he, hn⟩ := List.mem_map.1 hm
      have := hr.fresh e he; omega
    · intro e he
      rcases List.mem_cons.1 (hperm.mem_iff.1 he) with rfl | he
      · show c.nextNode < c.nextNode + 1; omega
      · have := hr.fresh e he
        show _ < c.nextNode + 1; omega

/-- Every public call returns what the recency-list cache returns and keeps the relation. -/
theorem call_refine (h : Rep c s) (cl : Call L V) :
    (call c cl).1 = (s.call cl).1 ∧ Rep (call c cl).2 (s.call cl).2 := by
  cases cl with
  | hasLabel l => exact ⟨by simp [call, Spec.call, h.has_eq], h⟩
  | get l =>
    rcases get_refine h l with ⟨v, n, h1, h2, h3⟩ | ⟨h1, h2, h3⟩
    · simp only [call]
      rw [show get c l = ((get c l).1, (get c l).2) from rfl, h1]
      exact ⟨h2.symm, h3⟩
    · simp only [call]
      rw [show get c l = ((get c l).1, (get c l).2) from rfl, h1, h2, h3]
      exact ⟨rfl, h⟩
  | age l =>
    rcases age_refine h l with ⟨i, h1, h2⟩ | ⟨h1, h2⟩
    · simp only [call, h1, h2]; exact ⟨trivial, h⟩
    · simp only [call, h1, h2]; exact ⟨trivial, h⟩
  | put l v =>
    rcases put_refine h l v with ⟨c', h1, h2, h3, _⟩ | ⟨h1, h2, _⟩
    · simp only [call, h1, h2]; exact ⟨trivial, h3⟩
    · simp only [call, h1, h2]; exact ⟨trivial, h⟩
  | currentSize => exact ⟨by simp [call, Spec.call, currentSize, h.length_eq], h⟩
  | maximumSize => exact ⟨by simp [call, Spec.call, h.max], h⟩

theorem run_snoc (c : Cache L V) (calls : List (Call L V)) (cl : Call L V) :
    run c (calls ++ [cl]) =
      ((cl, (call (run c calls).2 cl).1) :: (run c calls).1, (call (run c calls).2 cl).2) := by
  simp [run]

theorem spec_run_snoc (s : Spec L V) (calls : List (Call L V)) (cl : Call L V) :
    s.run (calls ++ [cl]) =
      ((cl, ((s.run calls).2.call cl).1) :: (s.run calls).1, ((s.run calls).2.call cl).2) := by
  simp [Spec.run]

theorem snoc_induction {α : Type u} {P : List α → Prop} (nil : P [])
    (snoc : ∀ l a, P l → P (l ++ [a])) : ∀ l, P l := by
  intro l
  have : ∀ r : List α, P r.reverse := by
    intro r
    induction r with
    | nil => exact nil
    | cons a r ih => rw [List.reverse_cons]; exact snoc _ _ ih
  simpa using this l.reverse

/-- Every client program gets the answers of the recency-list cache. -/
theorem run_refine {n : Nat} (hn : 0 < n) (calls : List (Call L V)) :
    (run (empty n) calls).1 = (Spec.run ⟨n, []⟩ calls).1 ∧
    Rep (run (empty n) calls).2 (Spec.run ⟨n, []⟩ calls).2 := by
  induction calls using snoc_induction with
  | nil => exact ⟨rfl, rep_empty hn⟩
  | snoc calls cl ih =>
    rw [run_snoc, spec_run_snoc]
    have := call_refine ih.2 cl
    exact ⟨by simp only [this.1, ih.1], this.2⟩

end Helper.LRU
