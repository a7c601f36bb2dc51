import Verif.LRU.Refs
/-!
# C07, continued: exactly when a put is undefined after throwing insertions, how soon it becomes so, and how a client
can repair the cache
-/
set_option linter.unusedSectionVars false
namespace Helper.LRU

variable {L : Type u} {V : Type v} [Cmp L] [StrictWeak L]
variable {c : Cache L V} {s : Spec L V}

theorem scan_fst_eq_none {m : Nat} {es : List (L × Entry V)} {r : Option Nat} :
    (scan m es r).1 = none ↔ r = none ∧ ∀ e ∈ es, e.2.age ≠ m - 1 := by
  induction es generalizing r with
  | nil => simp [scan]
  | cons x t ih =>
    obtain ⟨l, e⟩ := x
    simp only [scan, ih]
    by_cases h : e.age = m - 1
    · simp [h]
    · simp [h]

theorem makeRoom_ub_iff (c : Cache L V) :
    makeRoom c = .ub .eraseEnd ↔ ¬ c.elements.length < c.maximumSize ∧ ∀ e ∈ c.elements, e.2.age ≠ c.maximumSize - 1 := by
  unfold makeRoom
  by_cases h : c.elements.length < c.maximumSize
  · simp [h]
  · simp only [h, if_false, scan_snd, not_false_eq_true, true_and]
    have h1 := scan_fst_eq_none (m := c.maximumSize) (es := c.elements) (r := none)
    simp only [true_and] at h1
    rw [← h1]
    cases (scan c.maximumSize c.elements none).1 <;> simp [eraseNode]

theorem age_ok (hs : OMap.Sorted c.elements) {k : Nat} :
    (∃ x, hasLabel c x = true ∧ age c x = .ok k) ↔ ∃ e ∈ c.elements, e.2.age = k := by
  constructor
  · rintro ⟨x, hx, ha⟩
    obtain ⟨e, he⟩ := hasLabel_true hx
    unfold age at ha
    cases hf : OMap.find x c.elements with
    | none => rw [hf] at ha; simp at ha
    | some e => rw [hf] at ha; simp at ha; exact ⟨e, (OMap.find_some_mem hf).1, ha⟩
  · rintro ⟨e, he, rfl⟩
    have : OMap.find e.1 c.elements = some e := (OMap.find_eq_some_iff hs).2 ⟨he, by simp⟩
    exact ⟨e.1, hasLabel_of_mem he, by simp [age, this]⟩

/-- C07, exactly: after any history with throwing insertions and no undefined behaviour so far, a put of an absent label,
throwing or not, is undefined if and only if the cache is full and no present label has age `n-1`; otherwise the ordinary
put succeeds and the throwing one throws. -/
theorem C07_undefined_iff_partial {n : Nat} (hn : 0 < n) (calls : List (FCall L V))
    (hub : ∀ ev ∈ (frun (empty n) calls).1, ev.2.isUB = false) (l : L) (v : V) (e : Exn)
    (hl : hasLabel (frun (empty n) calls).2 l = false) :
    let c := (frun (empty n) calls).2
    let Stuck := currentSize c = n ∧ ¬ ∃ x, hasLabel c x = true ∧ age c x = .ok (n - 1)
    (Stuck → (fcall c (.plain (.put l v))).1 = .ub .eraseEnd ∧ (fcall c (.putThrows l v e)).1 = .ub .eraseEnd) ∧
    (¬ Stuck → (fcall c (.plain (.put l v))).1 = .ok .unit ∧ (fcall c (.putThrows l v e)).1 = .exn e) := by
  intro c
  have h : FInv (frun (empty n) calls).1 n c := frun_inv hn calls hub
  have hm := h.max
  have hlen := h.len
  have hst : (currentSize c = n ∧ ¬ ∃ x, hasLabel c x = true ∧ age c x = .ok (n - 1)) ↔ makeRoom c = .ub .eraseEnd := by
    rw [makeRoom_ub_iff, age_ok h.sorted, hm]
    unfold currentSize
    constructor
    · rintro ⟨h1, h2⟩
      exact ⟨by omega, fun e he ha => h2 ⟨e, he, ha⟩⟩
    · rintro ⟨h1, h2⟩
      exact ⟨by omega, fun ⟨e, he, ha⟩ => h2 e he ha⟩
  intro Stuck
  refine ⟨fun hS => ?_, fun hS => ?_⟩
  · have := hst.1 hS
    change hasLabel c l = false at hl
    simp [fcall, call, put, hl, this]
  · rcases makeRoom_not_throw c with ⟨es, hes⟩ | hes
    · change hasLabel c l = false at hl
      simp [fcall, call, put, hl, hes, Arg.read]
    · exact absurd (hst.2 hes) hS

/-- Both cases occur: after one throwing insertion, a put that succeeds and one that is undefined. -/
example :
    let calls : List (FCall Nat Nat) := [.plain (.put 1 10), .plain (.put 2 20), .putThrows 3 30 .badAlloc]
    (∀ ev ∈ (frun (empty 2) (calls ++ [.plain (.put 4 40)])).1, ev.2.isUB = false) ∧
    (fcall (frun (empty 2) calls).2 (.plain (.put 4 40))).1 = .ok .unit ∧
    (fcall (frun (empty 2) (calls ++ [.plain (.put 4 40)])).2 (.plain (.put 5 50))).1 = .ub .eraseEnd := by decide

/-! ## One throwing insertion makes the n-th put undefined -/

/-- The ages after `j` puts since the insertion that threw: `j` is missing, everything else below the size is there. -/
structure Gap (n j : Nat) (c : Cache L V) : Prop where
  max : c.maximumSize = n
  len : c.elements.length ≤ n
  sorted : OMap.Sorted c.elements
  nodes : (c.elements.map (fun e => e.2.node)).Nodup
  fresh : ∀ e ∈ c.elements, e.2.node < c.nextNode
  lt : j < c.elements.length
  missing : ∀ e ∈ c.elements, e.2.age ≠ j
  present : ∀ a, a < c.elements.length → a ≠ j → ∃ e ∈ c.elements, e.2.age = a

theorem scan_fst_mem {m k : Nat} : ∀ {es : List (L × Entry V)} {r : Option Nat}, (scan k es r).1 = some m →
    r = some m ∨ ∃ e ∈ es, e.2.node = m ∧ e.2.age = k - 1 := by
  intro es
  induction es with
  | nil => intro r h; left; simpa [scan] using h
  | cons x t ih =>
    intro r h
    obtain ⟨l, e⟩ := x
    simp only [scan] at h
    rcases ih h with h' | ⟨e', he', h'⟩
    · by_cases hk : e.age = k - 1
      · simp only [hk, if_true, Option.some.injEq] at h'
        exact .inr ⟨(l, e), by simp, h', hk⟩
      · simp only [hk, if_false] at h'; exact .inl h'
    · exact .inr ⟨e', List.mem_cons_of_mem _ he', h'⟩

/-- What room-making keeps, when an element of age `n-1` exists in a full cache. -/
theorem makeRoom_ages {n : Nat} (hn : 0 < n) (hmax : c.maximumSize = n) (hlen : c.elements.length ≤ n)
    (hnodes : (c.elements.map (fun e => e.2.node)).Nodup) {es : List (L × Entry V)} (hes : makeRoom c = .ok es) :
    es.length = min c.elements.length (n - 1) ∧ es.Sublist (incrementAll c.elements) ∧
    ∀ e ∈ c.elements, (c.elements.length < n ∨ e.2.age ≠ n - 1) → ∃ e' ∈ es, e'.2.age = e.2.age + 1 := by
  have hweak := makeRoom_weak hn hmax hlen hes
  unfold makeRoom at hes
  by_cases hlt : c.elements.length < c.maximumSize
  · simp only [hlt, if_true, Res.ok.injEq] at hes
    subst hes
    refine ⟨by simp [incrementAll]; omega, List.Sublist.refl _, fun e he _ => ?_⟩
    exact ⟨(e.1, { e.2 with age := e.2.age + 1 }), List.mem_map_of_mem he, rfl⟩
  · simp only [hlt, if_false, scan_snd] at hes
    cases hsc : (scan c.maximumSize c.elements none).1 with
    | none => rw [hsc] at hes; simp [eraseNode] at hes
    | some m =>
      rw [hsc] at hes
      simp only [eraseNode, Res.ok.injEq] at hes
      subst hes
      rcases scan_fst_mem hsc with h | ⟨e0, he0, hm0, ha0⟩
      · simp at h
      have hkeep : ∀ e ∈ c.elements, e.2.node = m → e = e0 := fun e he hm => nodup_map_inj hnodes he he0 (by rw [hm, hm0])
      refine ⟨?_, hweak.2, fun e he hage => ?_⟩
      · -- exactly one element goes
        have h1 : ∀ l : List (L × Entry V), (l.map (fun e => e.2.node)).Nodup →
            l.length ≤ (l.filter fun e => decide (e.2.node ≠ m)).length + 1 := by
          intro l
          induction l with
          | nil => simp
          | cons x l ih =>
            intro hnd
            simp only [List.map_cons, List.nodup_cons] at hnd
            by_cases hx : x.2.node = m
            · have : l.filter (fun e => decide (e.2.node ≠ m)) = l := by
                rw [List.filter_eq_self]
                intro y hy
                have : y.2.node ≠ m := fun h => hnd.1 (by rw [hx, ← h]; exact List.mem_map_of_mem (f := fun e => e.2.node) hy)
                simpa using this
              rw [List.filter_cons_of_neg (by simp [hx]), this]
              simp
            · rw [List.filter_cons_of_pos (by simp [hx])]
              have := ih hnd.2
              simp only [List.length_cons]; omega
        have h2 := h1 (incrementAll c.elements) (by rw [incrementAll_nodes]; exact hnodes)
        have h3 : (incrementAll c.elements).length = c.elements.length := by simp [incrementAll]
        have h4 := hweak.1
        simp only [ne_eq, decide_not] at h2 h4 ⊢
        omega
      · refine ⟨(e.1, { e.2 with age := e.2.age + 1 }), List.mem_filter.2 ⟨List.mem_map_of_mem he, ?_⟩, rfl⟩
        have : e.2.node ≠ m := fun hm => by
          have := hkeep e he hm
          subst this
          rcases hage with h | h <;> omega
        simpa using this

/-- Room-making and insertion, on the invariants that do not speak of ages. -/
theorem put_elements {n : Nat} (hn : 0 < n) (hmax : c.maximumSize = n) (hlen : c.elements.length ≤ n)
    (hsorted : OMap.Sorted c.elements) {es : List (L × Entry V)} (hes : makeRoom c = .ok es) {l : L} (v : V)
    (hl : hasLabel c l = false) :
    (call c (.put l v)) = (.ok .unit, { c with elements := OMap.insert l ⟨0, v, c.nextNode⟩ es, nextNode := c.nextNode + 1 }) ∧
    (OMap.insert l ⟨0, v, c.nextNode⟩ es).Perm ((l, ⟨0, v, c.nextNode⟩) :: es) ∧ OMap.Sorted es := by
  have hw := makeRoom_weak hn hmax hlen hes
  have hs : OMap.Sorted es := OMap.sorted_sublist (map_sorted_congr (incrementAll_keys _) hsorted) hw.2
  refine ⟨by simp [call, put, hl, hes, Arg.read], OMap.insert_perm fun e he => ?_, hs⟩
  obtain ⟨e', he', h1, _⟩ := incrementAll_sub (hw.2.mem he)
  cases hq : Cmp.equiv e.1 l
  · rfl
  · have : hasLabel c l = true := by
      rw [← hasLabel_congr c hq, ← h1]; exact hasLabel_of_mem he'
    rw [this] at hl; simp at hl

/-- A put of an absent label moves the gap up by one. -/
theorem Gap.put {n j : Nat} (h : Gap n j c) (hj : j + 1 < n) (l : L) (v : V) (hl : hasLabel c l = false) :
    (call c (.put l v)).1 = .ok .unit ∧ Gap n (j + 1) (call c (.put l v)).2 := by
  have hn : 0 < n := by omega
  have hm := h.max
  have hlen := h.len
  rcases makeRoom_not_throw c with ⟨es, hes⟩ | hes
  · obtain ⟨hsize, hsub, hkeep⟩ := makeRoom_ages hn hm hlen h.nodes hes
    obtain ⟨hcall, hperm, hs⟩ := put_elements hn hm hlen h.sorted hes v hl
    rw [hcall]
    have hlt := h.lt
    have hL : (OMap.insert l ⟨0, v, c.nextNode⟩ es).length = es.length + 1 := by rw [hperm.length_eq]; rfl
    refine ⟨rfl, hm, ?_, OMap.sorted_insert hs, ?_, ?_, ?_, ?_, ?_⟩
    · show (OMap.insert l ⟨0, v, c.nextNode⟩ es).length ≤ n
      omega
    · show ((OMap.insert l ⟨0, v, c.nextNode⟩ es).map _).Nodup
      refine (hperm.map (fun e => e.2.node)).nodup_iff.2 ?_
      simp only [List.map_cons, List.nodup_cons]
      refine ⟨fun hm => ?_, (incrementAll_nodes c.elements ▸ h.nodes : ((incrementAll c.elements).map _).Nodup).sublist (hsub.map _)⟩
      obtain ⟨e, he, hn'⟩ := List.mem_map.1 hm
      obtain ⟨e', he', _, _, h3, _⟩ := incrementAll_sub (hsub.mem he)
      have := h.fresh e' he'
      omega
    · intro e he
      rcases List.mem_cons.1 (hperm.mem_iff.1 he) with rfl | he
      · show c.nextNode < c.nextNode + 1; omega
      · obtain ⟨e', he', _, _, h3, _⟩ := incrementAll_sub (hsub.mem he)
        have := h.fresh e' he'
        show _ < c.nextNode + 1; omega
    · show j + 1 < (OMap.insert l ⟨0, v, c.nextNode⟩ es).length
      omega
    · intro e he
      rcases List.mem_cons.1 (hperm.mem_iff.1 he) with rfl | he
      · show 0 ≠ j + 1; omega
      · obtain ⟨e', he', _, _, _, h4⟩ := incrementAll_sub (hsub.mem he)
        have := h.missing e' he'
        omega
    · intro a ha haj
      have ha : a < (OMap.insert l ⟨0, v, c.nextNode⟩ es).length := ha
      cases a with
      | zero => exact ⟨_, hperm.mem_iff.2 (List.mem_cons_self ..), rfl⟩
      | succ a =>
        obtain ⟨e, he, hea⟩ := h.present a (by omega) (by omega)
        obtain ⟨e', he', h'⟩ := hkeep e he (by omega)
        exact ⟨e', hperm.mem_iff.2 (List.mem_cons_of_mem _ he'), by omega⟩
  · obtain ⟨h1, h2⟩ := (makeRoom_ub_iff c).1 hes
    rw [hm] at h1 h2
    obtain ⟨e, he, hea⟩ := h.present (n - 1) (by omega) (by omega)
    exact absurd hea (h2 e he)

/-- At the end the gap is at the age that is looked for. -/
theorem Gap.stuck {n : Nat} (h : Gap n (n - 1) c) (hn : 0 < n) (l : L) (v : V) (hl : hasLabel c l = false) :
    (call c (.put l v)).1 = .ub .eraseEnd := by
  have : makeRoom c = .ub .eraseEnd := by
    rw [makeRoom_ub_iff, h.max]
    have := h.lt
    exact ⟨by omega, h.missing⟩
  simp [call, Helper.LRU.put, hl, this]

/-- A throwing insertion opens the gap. -/
theorem Rep.gap {n : Nat} (h : Rep c s) (hcap : s.cap = n) (hn : 2 ≤ n) (hpos : 0 < c.elements.length) (l : L) (v : V) (e : Exn)
    (hl : hasLabel c l = false) :
    (fcall c (.putThrows l v e)).1 = .exn e ∧ Gap n 0 (fcall c (.putThrows l v e)).2 := by
  have hm : c.maximumSize = n := by rw [h.max, hcap]
  have hlen : c.elements.length ≤ n := by rw [h.length_eq, ← hcap]; exact h.len
  obtain ⟨es, hes, hroom⟩ := makeRoom_room h
  obtain ⟨hsize, hsub, hkeep⟩ := makeRoom_ages (by omega) hm hlen h.nodes hes
  have hcall : fcall c (.putThrows l v e) = (.exn e, { c with elements := es }) := by
    simp [fcall, Helper.LRU.put, hl, hes, Arg.read]
  rw [hcall]
  refine ⟨rfl, hm, by show es.length ≤ n; omega, hroom.sorted, hroom.nodes, hroom.fresh, by show 0 < es.length; omega, ?_, ?_⟩
  · intro x hx
    obtain ⟨e', _, _, _, _, h4⟩ := hroom.sub x hx
    omega
  · intro a ha ha0
    have ha : a < es.length := ha
    have hit : a - 1 < s.items.length := by rw [← h.length_eq]; omega
    obtain ⟨x, hx, _, hxa, _⟩ := h.item_mem (List.getElem?_eq_getElem hit)
    obtain ⟨e', he', h'⟩ := hkeep x hx (by omega)
    exact ⟨e', he', by omega⟩

/-- Puts that are not rejected move the gap to the age that is looked for; then whatever is put is undefined. -/
theorem Gap.puts {n j : Nat} (hgap : Gap n j c) (puts : List (L × V)) (hlen : j + puts.length = n - 1) :
    let r := run c (puts.map fun p => .put p.1 p.2)
    (∀ ev ∈ r.1, ev.2 ≠ .exn .runtimeError) →
    (∀ ev ∈ r.1, ev.2 = .ok .unit) ∧ ∀ l' v', hasLabel r.2 l' = false → (call r.2 (.put l' v')).1 = .ub .eraseEnd := by
  have hjn : j < n := Nat.lt_of_lt_of_le hgap.lt hgap.len
  have key : ∀ puts : List (L × V), j + puts.length ≤ n - 1 →
      (∀ ev ∈ (run c (puts.map fun p => .put p.1 p.2)).1, ev.2 ≠ .exn .runtimeError) →
      (∀ ev ∈ (run c (puts.map fun p => .put p.1 p.2)).1, ev.2 = .ok .unit) ∧
      Gap n (j + puts.length) (run c (puts.map fun p => .put p.1 p.2)).2 := by
    intro puts
    induction puts using snoc_induction with
    | nil => intro _ _; exact ⟨by simp [run], hgap⟩
    | snoc puts p ih =>
      intro hle hr
      rw [List.map_append, List.map_singleton, run_snoc] at hr ⊢
      simp only [List.length_append, List.length_singleton] at hle ⊢
      obtain ⟨h4, h5⟩ := ih (by omega) fun ev hev => hr ev (List.mem_cons_of_mem _ hev)
      have hp : hasLabel (run c (puts.map fun p => .put p.1 p.2)).2 p.1 = false := by
        cases hh : hasLabel (run c (puts.map fun p => .put p.1 p.2)).2 p.1
        · rfl
        · exact absurd (by simp [call, Helper.LRU.put, hh]) (hr _ (List.mem_cons_self ..))
      obtain ⟨h6, h7⟩ := h5.put (by omega) p.1 p.2 hp
      refine ⟨fun ev hev => ?_, h7⟩
      rcases List.mem_cons.1 hev with rfl | hev
      · exact h6
      · exact h4 ev hev
  intro r hr
  obtain ⟨h4, h5⟩ := key puts (by omega) hr
  rw [hlen] at h5
  exact ⟨h4, fun l' v' hl' => h5.stuck (by omega) l' v' hl'⟩

/-- C07 (refuted for every capacity but one): take any nonempty cache of capacity `n ≥ 2` reached by ordinary calls, let one insertion
throw, and put `n-1` labels none of which is rejected. All these puts succeed, and whatever is put next is undefined. -/
theorem C07_every_capacity_refuted {n : Nat} (hn : 2 ≤ n) (calls : List (Call L V)) (l : L) (v : V) (e : Exn)
    (hpos : 0 < currentSize (run (empty n) calls).2) (hl : hasLabel (run (empty n) calls).2 l = false)
    (puts : List (L × V)) (hlen : puts.length = n - 1) :
    let c := (fcall (run (empty n) calls).2 (.putThrows l v e)).2
    let r := run c (puts.map fun p => .put p.1 p.2)
    (∀ ev ∈ r.1, ev.2 ≠ .exn .runtimeError) →
    (∀ ev ∈ r.1, ev.2 = .ok .unit) ∧ ∀ l' v', hasLabel r.2 l' = false → (call r.2 (.put l' v')).1 = .ub .eraseEnd := by
  obtain ⟨s, h1, _, h3⟩ := run_inv (show 0 < n by omega) calls
  obtain ⟨_, hgap⟩ := h1.gap h3 hn hpos l v e hl
  exact hgap.puts puts (by omega)

example :
    let c := (fcall (run (empty 3) [.put 1 10, .put 2 20, .put 3 30]).2 (.putThrows 4 40 .badAlloc)).2
    let r := run c ([(5, 50), (6, 60)].map fun p => .put p.1 p.2)
    (∀ ev ∈ r.1, ev.2 ≠ .exn .runtimeError) ∧ hasLabel r.2 (7 : Nat) = false ∧
    (call r.2 (.put 7 (70 : Nat))).1 = .ub .eraseEnd := by decide

/-! ## Repairing the cache: get every label once -/

theorem getF_view (hnodes : (c.elements.map (fun e => e.2.node)).Nodup) (hages : (c.elements.map (fun e => e.2.age)).Nodup)
    {e : L × Entry V} (he : e ∈ c.elements) :
    (resetAge e.2.node (bumpYounger e.2.age c.elements)).map view =
      (c.elements.map view).map (fun x => (x.1, (if x.2.1 < e.2.age then x.2.1 + 1
        else if x.2.1 = e.2.age then 0 else x.2.1), x.2.2)) := by
  unfold resetAge bumpYounger
  rw [List.map_map, List.map_map, List.map_map]
  refine List.map_congr_left fun x hx => ?_
  simp only [Function.comp, view]
  by_cases hlt : x.2.age < e.2.age
  · have hne : x.2.node ≠ e.2.node := fun hn => by
      have := nodup_map_inj hnodes hx he hn; subst this; omega
    simp [hlt, hne]
  · by_cases heq : x.2.age = e.2.age
    · have hxe := nodup_map_inj hages hx he heq
      subst hxe; simp
    · have hne : x.2.node ≠ e.2.node := fun hn => by
        have := nodup_map_inj hnodes hx he hn; subst this; exact heq rfl
      simp [hlt, heq, hne]

theorem nodup_map_of {α : Type w} {es : List α} {f g : α → Nat} (h : (es.map f).Nodup)
    (hfg : ∀ a ∈ es, ∀ b ∈ es, f a ≠ f b → g a ≠ g b) : (es.map g).Nodup := by
  unfold List.Nodup at *
  rw [List.pairwise_map] at *
  exact h.imp_of_mem fun ha hb hab => hfg _ ha _ hb hab

/-- All ages are different, whatever throws. -/
theorem ages_step {n : Nat} {t : List (FCall L V × Res (Out V))} (h : FInv t n c) (hn : 0 < n)
    (ha : (c.elements.map (fun e => e.2.age)).Nodup) (cl : FCall L V) (hub : (fcall c cl).1.isUB = false) :
    ((fcall c cl).2.elements.map (fun e => e.2.age)).Nodup := by
  have room : ∀ es, makeRoom c = .ok es → (es.map (fun e => e.2.age)).Nodup ∧ ∀ e ∈ es, e.2.age ≠ 0 := by
    intro es hes
    have hsub := (makeRoom_weak hn h.max h.len hes).2
    refine ⟨List.Nodup.sublist (hsub.map _) ?_, fun e he => ?_⟩
    · unfold incrementAll
      rw [List.map_map]
      exact nodup_map_of ha fun a _ b _ hab => by simp only [Function.comp]; omega
    · obtain ⟨e', _, _, _, _, h4⟩ := incrementAll_sub (hsub.mem he)
      omega
  cases cl with
  | putThrows l v e =>
    simp only [fcall, put] at hub ⊢
    cases hh : hasLabel c l with
    | true => exact ha
    | false =>
      rcases makeRoom_not_throw c with ⟨es, hes⟩ | hes
      · simp only [hes, Arg.read, Bool.false_eq_true, if_false]
        exact (room es hes).1
      · simp [hh, hes] at hub
  | plain cl =>
    cases cl with
    | hasLabel _ => exact ha
    | currentSize => exact ha
    | maximumSize => exact ha
    | age l => simp only [fcall, call]; split <;> exact ha
    | get l =>
      simp only [fcall, call, get]
      cases hf : OMap.find l c.elements with
      | none => exact ha
      | some e0 =>
        have he0 := (OMap.find_some_mem hf).1
        show ((resetAge e0.2.node (bumpYounger e0.2.age c.elements)).map (fun e => e.2.age)).Nodup
        have h1 : (resetAge e0.2.node (bumpYounger e0.2.age c.elements)).map (fun e => e.2.age) =
            c.elements.map (fun x => if x.2.age < e0.2.age then x.2.age + 1 else if x.2.age = e0.2.age then 0 else x.2.age) := by
          have := congrArg (List.map (fun x : L × Nat × V => x.2.1)) (getF_view h.nodes ha he0)
          rw [List.map_map, List.map_map, List.map_map] at this
          exact this
        rw [h1]
        exact nodup_map_of ha fun a _ b _ hab => by split <;> split <;> (try split) <;> (try split) <;> omega
    | put l v =>
      simp only [fcall, call, put] at hub ⊢
      cases hh : hasLabel c l with
      | true => exact ha
      | false =>
        rcases makeRoom_not_throw c with ⟨es, hes⟩ | hes
        · have hno := (h.room hn hes).2.2 l hh
          have hperm := OMap.insert_perm (v := (⟨0, v, c.nextNode⟩ : Entry V)) hno
          simp only [hes, Arg.read, Bool.false_eq_true, if_false]
          refine (hperm.map (fun e => e.2.age)).nodup_iff.2 ?_
          simp only [List.map_cons, List.nodup_cons]
          refine ⟨fun hm => ?_, (room es hes).1⟩
          obtain ⟨e, he, hn'⟩ := List.mem_map.1 hm
          exact (room es hes).2 e he hn'
        · simp [hh, hes] at hub

theorem frun_ages {n : Nat} (hn : 0 < n) (calls : List (FCall L V))
    (hub : ∀ ev ∈ (frun (empty n) calls).1, ev.2.isUB = false) :
    ((frun (empty n) calls).2.elements.map (fun e => e.2.age)).Nodup := by
  induction calls using snoc_induction with
  | nil => simp [frun, empty]
  | snoc calls cl ih =>
    rw [frun_snoc] at hub ⊢
    exact ages_step (frun_inv hn calls fun ev hev => hub ev (List.mem_cons_of_mem _ hev)) hn
      (ih fun ev hev => hub ev (List.mem_cons_of_mem _ hev)) cl (hub _ (List.mem_cons_self ..))

/-- The state of the repair after the labels `gs` have been got: `t` are the elements touched so far, most recent first, and `r`
the others, all of which are older. -/
structure Repair (n : Nat) (gs : List L) (c : Cache L V) (t : List (L × V)) (r : List (L × Nat × V)) : Prop where
  max : c.maximumSize = n
  len : c.elements.length ≤ n
  sorted : OMap.Sorted c.elements
  nodes : (c.elements.map (fun e => e.2.node)).Nodup
  ages : (c.elements.map (fun e => e.2.age)).Nodup
  fresh : ∀ e ∈ c.elements, e.2.node < c.nextNode
  perm : (c.elements.map view).Perm (aged 0 t ++ r)
  older : ∀ x ∈ r, t.length ≤ x.2.1
  untouched : ∀ x ∈ r, ∀ g ∈ gs, Cmp.equiv x.1 g = false

theorem Repair.inequiv {n : Nat} {gs : List L} {t : List (L × V)} {r : List (L × Nat × V)} (h : Repair n gs c t r) :
    (aged 0 t ++ r).Pairwise (fun a b => Cmp.equiv a.1 b.1 = false) := by
  have h1 : (c.elements.map view).Pairwise (fun a b => Cmp.equiv a.1 b.1 = false) := by
    rw [List.pairwise_map]
    exact List.Pairwise.imp (fun hab => Cmp.equiv_false_of_lt hab) h.sorted
  exact (h.perm.pairwise_iff (fun hab => by rw [Cmp.equiv_comm]; exact hab)).1 h1

theorem Repair.distinct {n : Nat} {gs : List L} {t : List (L × V)} {r : List (L × Nat × V)} (h : Repair n gs c t r) :
    (aged 0 t ++ r).Pairwise (fun a b => a.2.1 ≠ b.2.1) := by
  have h1 : (c.elements.map view).Pairwise (fun a b => a.2.1 ≠ b.2.1) := by
    rw [List.pairwise_map]
    have := h.ages
    unfold List.Nodup at this
    rw [List.pairwise_map] at this
    exact this
  exact (h.perm.pairwise_iff (fun hab => Ne.symm hab)).1 h1

/-- One `get` of the repair. -/
theorem Repair.get {n : Nat} {gs : List L} {t : List (L × V)} {r : List (L × Nat × V)} (h : Repair n gs c t r) (l : L) :
    ∃ t' r', Repair n (l :: gs) (call c (.get l)).2 t' r' := by
  have hin := h.inequiv
  have hdi := h.distinct
  cases hf : OMap.find l c.elements with
  | none =>
    have hc : (call c (.get l)).2 = c := by simp [call, Helper.LRU.get, hf]
    rw [hc]
    refine ⟨t, r, h.max, h.len, h.sorted, h.nodes, h.ages, h.fresh, h.perm, h.older, fun x hx g hg => ?_⟩
    rcases List.mem_cons.1 hg with rfl | hg
    · obtain ⟨e, he, hv⟩ := List.mem_map.1 (h.perm.mem_iff.2 (List.mem_append_right _ hx))
      rw [← hv]
      exact OMap.find_eq_none.1 hf e he
    · exact h.untouched x hx g hg
  | some e =>
    obtain ⟨he, hel⟩ := OMap.find_some_mem hf
    have hc : (call c (.get l)).2 = { c with elements := resetAge e.2.node (bumpYounger e.2.age c.elements) } := by
      simp [call, Helper.LRU.get, hf]
    rw [hc]
    have hview := getF_view h.nodes h.ages he
    have hmem : view e ∈ aged 0 t ++ r := h.perm.mem_iff.1 (List.mem_map_of_mem he)
    have hages : ((resetAge e.2.node (bumpYounger e.2.age c.elements)).map (fun e => e.2.age)).Nodup := by
      have h1 : (resetAge e.2.node (bumpYounger e.2.age c.elements)).map (fun e => e.2.age) =
          c.elements.map (fun x => if x.2.age < e.2.age then x.2.age + 1 else if x.2.age = e.2.age then 0 else x.2.age) := by
        have := congrArg (List.map (fun x : L × Nat × V => x.2.1)) hview
        rw [List.map_map, List.map_map, List.map_map] at this
        exact this
      rw [h1]
      exact nodup_map_of h.ages fun a _ b _ hab => by split <;> split <;> (try split) <;> (try split) <;> omega
    have hlen : (resetAge e.2.node (bumpYounger e.2.age c.elements)).length ≤ n := by
      simpa [resetAge, bumpYounger] using h.len
    have hsorted := map_sorted_congr (resetAge_bump_keys e.2.node e.2.age c.elements) h.sorted
    have hnodes : ((resetAge e.2.node (bumpYounger e.2.age c.elements)).map (fun e => e.2.node)).Nodup := by
      rw [resetAge_bump_nodes]; exact h.nodes
    have hfresh := fresh_of_nodes (resetAge_bump_nodes e.2.node e.2.age c.elements) h.fresh
    rcases List.mem_append.1 hmem with hm | hm
    · -- already touched
      have hi : t[e.2.age]? = some (e.1, e.2.value) := by simpa [view, mem_aged] using hm
      obtain ⟨hlt, hget⟩ := List.getElem?_eq_some_iff.1 hi
      have hsplit : t = t.take e.2.age ++ (e.1, e.2.value) :: t.drop (e.2.age + 1) := by rw [← hget]; simp
      have hta : (t.take e.2.age).length = e.2.age := by simp; omega
      have htouch := aged_touch (t.take e.2.age) (t.drop (e.2.age + 1)) (e.1, e.2.value)
      rw [← hsplit, hta] at htouch
      refine ⟨(e.1, e.2.value) :: (t.take e.2.age ++ t.drop (e.2.age + 1)), r, h.max, hlen, hsorted, hnodes, hages, hfresh, ?_, ?_, ?_⟩
      · show ((resetAge e.2.node (bumpYounger e.2.age c.elements)).map view).Perm _
        rw [hview]
        refine (h.perm.map _).trans ?_
        rw [List.map_append]
        refine htouch.append (List.Perm.of_eq ?_)
        conv => rhs; rw [← List.map_id r]
        refine List.map_congr_left fun x hx => ?_
        have := h.older x hx
        rw [if_neg (by omega), if_neg (by omega)]; rfl
      · intro x hx
        have := h.older x hx
        simp only [List.length_cons, List.length_append, hta, List.length_drop]
        omega
      · intro x hx g hg
        rcases List.mem_cons.1 hg with rfl | hg
        · have h1 := (List.pairwise_append.1 hin).2.2 _ hm x hx
          rw [← Cmp.equiv_of_equiv_right hel, Cmp.equiv_comm]
          exact h1
        · exact h.untouched x hx g hg
    · -- touched for the first time
      obtain ⟨r1, r2, hr⟩ := List.append_of_mem hm
      have hage := h.older _ hm
      simp only [view] at hage
      have hin2 : ∀ x ∈ r1 ++ r2, Cmp.equiv x.1 e.1 = false ∧ x.2.1 ≠ e.2.age := by
        intro x hx
        have h1 := (List.pairwise_append.1 hin).2.1
        have h2 := (List.pairwise_append.1 hdi).2.1
        rw [hr, List.pairwise_append] at h1 h2
        rcases List.mem_append.1 hx with hx | hx
        · exact ⟨h1.2.2 x hx _ (List.mem_cons_self ..), h2.2.2 x hx _ (List.mem_cons_self ..)⟩
        · have h3 := (List.pairwise_cons.1 h1.2.1).1 x hx
          have h4 := (List.pairwise_cons.1 h2.2.1).1 x hx
          exact ⟨by rw [Cmp.equiv_comm]; exact h3, Ne.symm h4⟩
      have hsub : ∀ x ∈ r1 ++ r2, x ∈ r := by
        intro x hx
        rw [hr]
        rcases List.mem_append.1 hx with hx | hx
        · exact List.mem_append_left _ hx
        · exact List.mem_append_right _ (List.mem_cons_of_mem _ hx)
      refine ⟨(e.1, e.2.value) :: t, (r1 ++ r2).map (fun x => (x.1, (if x.2.1 < e.2.age then x.2.1 + 1
        else if x.2.1 = e.2.age then 0 else x.2.1), x.2.2)), h.max, hlen, hsorted, hnodes, hages, hfresh, ?_, ?_, ?_⟩
      · show ((resetAge e.2.node (bumpYounger e.2.age c.elements)).map view).Perm _
        rw [hview]
        refine (h.perm.map _).trans ?_
        rw [List.map_append, aged_map_lt t (by omega), hr, List.map_append, List.map_cons]
        simp only [view, Nat.lt_irrefl, if_false, if_true, aged, List.cons_append, Nat.zero_add, List.map_append]
        rw [← List.append_assoc, ← List.append_assoc]
        exact List.perm_middle
      · intro x hx
        obtain ⟨y, hy, rfl⟩ := List.mem_map.1 hx
        have h1 := h.older y (hsub y hy)
        have h2 := (hin2 y hy).2
        simp only [List.length_cons]
        split
        · omega
        · omega
      · intro x hx g hg
        obtain ⟨y, hy, rfl⟩ := List.mem_map.1 hx
        rcases List.mem_cons.1 hg with rfl | hg
        · show Cmp.equiv y.1 g = false
          rw [← Cmp.equiv_of_equiv_right hel]
          exact (hin2 y hy).1
        · exact h.untouched y (hsub y hy) g hg

/-- A `get` changes neither the labels nor the values, whatever the ages are. -/
theorem get_observe (c : Cache L V) (l x : L) :
    hasLabel (call c (.get l)).2 x = hasLabel c x ∧
    (call (call c (.get l)).2 (.get x)).1 = (call c (.get x)).1 := by
  cases hf : OMap.find l c.elements with
  | none =>
    have hc : (call c (.get l)).2 = c := by simp [call, get, hf]
    rw [hc]; exact ⟨rfl, rfl⟩
  | some e =>
    have hc : (call c (.get l)).2 = { c with elements := resetAge e.2.node (bumpYounger e.2.age c.elements) } := by
      simp [call, get, hf]
    rw [hc]
    have key : ∀ es : List (L × Entry V), (OMap.find x (resetAge e.2.node (bumpYounger e.2.age es))).map (fun y => y.2.value) =
        (OMap.find x es).map (fun y => y.2.value) := by
      intro es
      induction es with
      | nil => rfl
      | cons y es ih =>
        have hy : ∃ a, (resetAge e.2.node (bumpYounger e.2.age (y :: es))) =
            (y.1, ⟨a, y.2.value, y.2.node⟩) :: resetAge e.2.node (bumpYounger e.2.age es) := by
          simp only [resetAge, bumpYounger, List.map_cons]
          by_cases h1 : y.2.age < e.2.age <;> by_cases h2 : y.2.node = e.2.node <;> simp only [h1, h2, if_true, if_false] <;> exact ⟨_, rfl⟩
        obtain ⟨a, ha⟩ := hy
        rw [ha]
        simp only [OMap.find, List.find?_cons] at ih ⊢
        cases Cmp.equiv y.1 x
        · exact ih
        · rfl
    have := key c.elements
    unfold hasLabel
    simp only [call, get]
    cases h1 : OMap.find x (resetAge e.2.node (bumpYounger e.2.age c.elements)) <;>
      cases h2 : OMap.find x c.elements <;> rw [h1, h2] at this <;> simp at this ⊢
    exact this

/-- Two caches that represent the same recency list answer alike. -/
theorem rep_same {c' : Cache L V} (h : Rep c s) (h' : Rep c' s) (more : List (Call L V)) : (run c more).1 = (run c' more).1 := by
  have key : ∀ {c : Cache L V} (_ : Rep c s), (run c more).1 = (s.run more).1 ∧ Rep (run c more).2 (s.run more).2 := by
    intro c h
    induction more using snoc_induction with
    | nil => exact ⟨rfl, h⟩
    | snoc more cl ih =>
      rw [run_snoc, spec_run_snoc]
      have := call_refine ih.2 cl
      exact ⟨by simp only [this.1, ih.1], this.2⟩
  rw [(key h).1, (key h').1]

/-- Every recency list is reached by puts alone. -/
theorem spec_reach (n : Nat) : ∀ items : List (L × V), items.length ≤ n → items.Pairwise (fun p q => Cmp.equiv p.1 q.1 = false) →
    (Spec.run ⟨n, []⟩ (items.reverse.map fun p => .put p.1 p.2)).2 = ⟨n, items⟩ := by
  intro items
  induction items with
  | nil => intro _ _; rfl
  | cons p items ih =>
    intro hlen hpw
    simp only [List.length_cons] at hlen
    obtain ⟨h1, h2⟩ := List.pairwise_cons.1 hpw
    rw [List.reverse_cons, List.map_append, List.map_singleton, spec_run_snoc, ih (by omega) h2]
    have : Spec.has (⟨n, items⟩ : Spec L V) p.1 = false := by
      rw [spec_has_false]
      intro q hq
      rw [Cmp.equiv_comm]; exact h1 q hq
    simp only [Spec.call, this, Bool.false_eq_true, if_false]
    rw [List.take_of_length_le (by omega)]

/-- C07 (how to repair the cache): after any history with throwing insertions and no undefined behaviour so far, get every present
label at least once, in any order and with any other gets in between. The labels and values are still the same, and from then on
no client can tell the cache from one that was filled by ordinary puts and in which nothing ever threw. -/
theorem C07_repair_partial {n : Nat} (hn : 0 < n) (calls : List (FCall L V))
    (hub : ∀ ev ∈ (frun (empty n) calls).1, ev.2.isUB = false) (gs : List L)
    (hall : ∀ x, hasLabel (frun (empty n) calls).2 x = true → ∃ g ∈ gs, Cmp.equiv g x = true) :
    let c := (frun (empty n) calls).2
    let c' := (run c (gs.map .get)).2
    (∀ x, hasLabel c' x = hasLabel c x ∧ (call c' (.get x)).1 = (call c (.get x)).1) ∧
    ∃ puts : List (L × V), ∀ more : List (Call L V),
      (run c' more).1 = (run (run (empty n) (puts.map fun p => .put p.1 p.2)).2 more).1 := by
  have hinv := frun_inv hn calls hub
  have hages := frun_ages hn calls hub
  generalize (frun (empty n) calls).2 = c at *
  have start : Repair n [] c [] (c.elements.map view) :=
    ⟨hinv.max, hinv.len, hinv.sorted, hinv.nodes, hages, hinv.fresh, by simp [aged], fun _ _ => Nat.zero_le _, fun _ _ _ h => by cases h⟩
  have key : ∀ gs : List L, (∃ t r, Repair n gs.reverse (run c (gs.map .get)).2 t r) ∧
      ∀ x, hasLabel (run c (gs.map .get)).2 x = hasLabel c x ∧
        (call (run c (gs.map .get)).2 (.get x)).1 = (call c (.get x)).1 := by
    intro gs
    induction gs using snoc_induction with
    | nil => exact ⟨⟨_, _, start⟩, fun x => ⟨rfl, rfl⟩⟩
    | snoc gs g ih =>
      obtain ⟨⟨t, r, h1⟩, h2⟩ := ih
      rw [List.map_append, List.map_singleton, run_snoc, List.reverse_append]
      refine ⟨h1.get g, fun x => ?_⟩
      have := get_observe (run c (gs.map .get)).2 g x
      exact ⟨this.1.trans (h2 x).1, this.2.trans (h2 x).2⟩
  obtain ⟨⟨t, r, hrep⟩, hobs⟩ := key gs
  refine ⟨hobs, ?_⟩
  have hr : r = [] := by
    cases r with
    | nil => rfl
    | cons x r =>
      have hx : x ∈ x :: r := List.mem_cons_self ..
      obtain ⟨e, he, hv⟩ := List.mem_map.1 (hrep.perm.mem_iff.2 (List.mem_append_right _ hx))
      have h1 : hasLabel c x.1 = true := by
        rw [← (hobs x.1).1, ← hv]; exact hasLabel_of_mem he
      obtain ⟨g, hg, hgx⟩ := hall _ h1
      have := hrep.untouched x hx g (List.mem_reverse.2 hg)
      rw [Cmp.equiv_comm, hgx] at this
      simp at this
  subst hr
  have hperm := hrep.perm
  rw [List.append_nil] at hperm
  have hlen : t.length ≤ n := by
    have := hperm.length_eq
    rw [length_aged, List.length_map] at this
    rw [← this]; exact hrep.len
  have hR : Rep (run c (gs.map .get)).2 ⟨n, t⟩ := ⟨hrep.max, hn, hlen, hperm, hrep.sorted, hrep.nodes, hrep.fresh⟩
  refine ⟨t.reverse, fun more => ?_⟩
  have h2 := (run_refine hn (t.reverse.map fun p => Call.put p.1 p.2)).2
  rw [spec_reach n t hlen hR.items_pairwise] at h2
  exact rep_same hR h2 more

/-- In the example above, repairing makes the next puts succeed and evict the right labels. -/
example :
    let calls : List (FCall Nat Nat) := [.plain (.put 1 10), .plain (.put 2 20), .plain (.put 3 30), .putThrows 4 40 .badAlloc]
    let c := (frun (empty 3) calls).2
    let c' := (run c [.get 2, .get 3]).2
    (∀ ev ∈ (frun (empty 3) calls).1, ev.2.isUB = false) ∧ hasLabel c 1 = false ∧ hasLabel c 2 = true ∧ hasLabel c 3 = true ∧
    (run c' [.put 5 50, .put 6 60, .hasLabel 2, .hasLabel 3]).1 =
      [(.hasLabel 3, .ok (.bool true)), (.hasLabel 2, .ok (.bool false)), (.put 6 60, .ok .unit), (.put 5 50, .ok .unit)] :=
  ⟨by decide, by decide, by decide, by decide, rfl⟩

end Helper.LRU
