import Verif.LRU.Threads
/-!
# Lookups of an LRUCache that overlap (C121): witnesses, for every capacity
-/
set_option linter.unusedSectionVars false
namespace Helper.LRU.Threads

variable {L : Type u} {V : Type v} [Cmp L] [StrictWeak L]

theorem step_busy {s : St L V} {j : Nat} {t : Thread L V} (h : s.ts[j]? = some t) (hp : t.pc ≠ .idle) : step j s = proceed s j t t.pc := by
  unfold step; simp [h, hp]

theorem put_get {s : St L V} {j : Nat} {t t' : Thread L V} (h : s.ts[j]? = some t) : (s.put j t').ts[j]? = some t' := by
  have := (List.getElem?_eq_some_iff.1 h).1
  simp [St.put, this]

/-- A thread that is alone comes to the end of the loop of `get`. -/
theorem solo {c : Cache L V} {e : L × Entry V} {k : Nat} (he : c.elements[k]? = some e) : ∀ (d i : Nat) (s : St L V) (j : Nat) (todo : List (Query L))
    (out : List (Res (Out V))), c.elements.length - i = d → s.ts[j]? = some ⟨todo, .other k i, out⟩ →
    s.c = { c with elements := prog e.2.age i c.elements } →
    ∃ m log, run (List.replicate m j) s = ⟨{ c with elements := bumpYounger e.2.age c.elements }, s.ts.set j ⟨todo, .reset k, out⟩, log⟩ := by
  intro d
  induction d with
  | zero =>
    intro i s j todo out hd hj hc
    have hi : c.elements[i]? = none := List.getElem?_eq_none_iff.2 (by omega)
    refine ⟨1, s.log, ?_⟩
    show step j s = _
    rw [step_busy hj (by simp)]
    have : s.c.elements[i]? = none := by rw [hc]; show (prog _ _ _)[i]? = none; rw [prog_get, hi]; rfl
    simp only [proceed, this, St.put]
    rw [hc, prog_all (by omega)]
  | succ d ih =>
    intro i s j todo out hd hj hc
    obtain ⟨x, hx⟩ : ∃ x, c.elements[i]? = some x := ⟨_, List.getElem?_eq_getElem (by omega)⟩
    obtain ⟨sc, ts, log⟩ := s
    simp only at hc hj
    subst hc
    have hx' : (prog e.2.age i c.elements)[i]? = some x := by rw [prog_get, hx]; simp
    have he' := prog_own (i := i) he
    have hlt : j < ts.length := (List.getElem?_eq_some_iff.1 hj).1
    have s1 : step j ⟨{ c with elements := prog e.2.age i c.elements }, ts, log⟩ =
        ⟨{ c with elements := prog e.2.age i c.elements }, ts.set j ⟨todo, .own k i x.2.age, out⟩, log ++ [(j, i, false)]⟩ := by
      rw [step_busy hj (by simp)]
      simp only [proceed, hx', St.put, St.acc]
    have s2 : ∀ log, step j ⟨{ c with elements := prog e.2.age i c.elements }, ts.set j ⟨todo, .own k i x.2.age, out⟩, log⟩ =
        ⟨{ c with elements := prog e.2.age i c.elements },
          ts.set j ⟨todo, if x.2.age < e.2.age then .incLoad k i else .other k (i + 1), out⟩, log ++ [(j, k, false)]⟩ := by
      intro log
      rw [step_busy (t := ⟨todo, .own k i x.2.age, out⟩) (by simp [hlt]) (by simp)]
      simp only [proceed, he', St.put, St.acc, List.set_set]
    by_cases hb : x.2.age < e.2.age
    · have s3 : ∀ log, step j ⟨{ c with elements := prog e.2.age i c.elements }, ts.set j ⟨todo, .incLoad k i, out⟩, log⟩ =
          ⟨{ c with elements := prog e.2.age i c.elements }, ts.set j ⟨todo, .incStore k i x.2.age, out⟩, log ++ [(j, i, false)]⟩ := by
        intro log
        rw [step_busy (t := ⟨todo, .incLoad k i, out⟩) (by simp [hlt]) (by simp)]
        simp only [proceed, hx', St.put, St.acc, List.set_set]
      have s4 : ∀ log, step j ⟨{ c with elements := prog e.2.age i c.elements }, ts.set j ⟨todo, .incStore k i x.2.age, out⟩, log⟩ =
          ⟨{ c with elements := prog e.2.age (i + 1) c.elements }, ts.set j ⟨todo, .other k (i + 1), out⟩, log ++ [(j, i, true)]⟩ := by
        intro log
        rw [step_busy (t := ⟨todo, .incStore k i x.2.age, out⟩) (by simp [hlt]) (by simp)]
        simp only [proceed, St.put, St.acc, List.set_set, setAge, prog_store hx hb]
      obtain ⟨m, log', hm⟩ := ih (i + 1) ⟨{ c with elements := prog e.2.age (i + 1) c.elements }, ts.set j ⟨todo, .other k (i + 1), out⟩,
        log ++ [(j, i, false)] ++ [(j, k, false)] ++ [(j, i, false)] ++ [(j, i, true)]⟩ j todo out (by omega) (by simp [hlt]) rfl
      refine ⟨m + 4, log', ?_⟩
      show run (List.replicate m j) (step j (step j (step j (step j _)))) = _
      rw [s1, s2, if_pos hb, s3, s4, hm]
      simp
    · obtain ⟨m, log', hm⟩ := ih (i + 1) ⟨{ c with elements := prog e.2.age (i + 1) c.elements }, ts.set j ⟨todo, .other k (i + 1), out⟩,
        log ++ [(j, i, false)] ++ [(j, k, false)]⟩ j todo out (by omega) (by simp [hlt]) rfl
      refine ⟨m + 2, log', ?_⟩
      show run (List.replicate m j) (step j (step j _)) = _
      rw [s1, s2, if_neg hb, ← prog_next hx hb, hm]
      simp

/-- The first step of `get`. -/
theorem step_get {s : St L V} {j : Nat} {l : L} {rest : List (Query L)} {out : List (Res (Out V))} {k : Nat}
    (hj : s.ts[j]? = some ⟨.get l :: rest, .idle, out⟩) (hi : index s.c l = some k) :
    step j s = s.put j ⟨rest, .other k 0, out⟩ := by
  unfold step
  simp only [hj, if_true]
  simp [begin, hi]

/-- The last step of `get`. -/
theorem step_reset {c : Cache L V} {ts : List (Thread L V)} {log : List (Nat × Nat × Bool)} {j k : Nat} {todo : List (Query L)}
    {out : List (Res (Out V))} {e : L × Entry V} (hj : ts[j]? = some ⟨todo, .reset k, out⟩) (he : c.elements[k]? = some e) :
    step j ⟨c, ts, log⟩ = ⟨setAge c k 0, ts.set j ⟨todo, .idle, out ++ [.ok (.val e.2.value)]⟩, log ++ [(j, k, true)]⟩ := by
  rw [step_busy (s := ⟨c, ts, log⟩) hj (by simp)]
  simp only [proceed, he, St.put, St.acc]

/-- Two threads look up the youngest and the oldest of the elements; the first one stores its 0 after the second one is finished. -/
theorem overlap {c : Cache L V} {l l' : L} {k k' : Nat} {e e' : L × Entry V} (hk : index c l = some k) (he : c.elements[k]? = some e)
    (hk' : index c l' = some k') (he' : c.elements[k']? = some e') (hage : e.2.age = 0) (hkk : k ≠ k') :
    ∃ sched log, run sched (init c [[.get l], [.get l']]) =
      ⟨setAge (setAge { c with elements := bumpYounger e'.2.age c.elements } k' 0) k 0,
        [⟨[], .idle, [.ok (.val e.2.value)]⟩, ⟨[], .idle, [.ok (.val e'.2.value)]⟩], log⟩ := by
  have hbump : bumpYounger e.2.age c.elements = c.elements := by
    rw [hage, bumpYounger]
    conv => rhs; rw [← List.map_id c.elements]
    apply List.map_congr_left
    intro x _; simp
  have a1 : step 0 (init c [[.get l], [.get l']]) = ⟨c, [⟨[], .other k 0, []⟩, ⟨[.get l'], .idle, []⟩], []⟩ := by
    rw [step_get (l := l) (rest := []) (out := []) rfl hk]; rfl
  obtain ⟨m, log, hm⟩ := solo he _ 0 ⟨c, [⟨[], .other k 0, []⟩, ⟨[.get l'], .idle, []⟩], []⟩ 0 [] [] rfl rfl (by rw [prog_zero])
  rw [hbump] at hm
  have hm : run (List.replicate m 0) ⟨c, [⟨[], .other k 0, []⟩, ⟨[.get l'], .idle, []⟩], []⟩ =
    ⟨c, [⟨[], .reset k, []⟩, ⟨[.get l'], .idle, []⟩], log⟩ := hm
  have a2 : step 1 (⟨c, [⟨[], .reset k, []⟩, ⟨[.get l'], .idle, []⟩], log⟩ : St L V) =
      ⟨c, [⟨[], .reset k, []⟩, ⟨[], .other k' 0, []⟩], log⟩ := by
    rw [step_get (l := l') (rest := []) (out := []) rfl hk']; rfl
  obtain ⟨m', log', hm'⟩ := solo he' _ 0 ⟨c, [⟨[], .reset k, []⟩, ⟨[], .other k' 0, []⟩], log⟩ 1 [] [] rfl rfl (by rw [prog_zero])
  have hm' : run (List.replicate m' 1) ⟨c, [⟨[], .reset k, []⟩, ⟨[], .other k' 0, []⟩], log⟩ =
    ⟨{ c with elements := bumpYounger e'.2.age c.elements }, [⟨[], .reset k, []⟩, ⟨[], .reset k', []⟩], log'⟩ := hm'
  have he2 : (bumpYounger e'.2.age c.elements)[k']? = some e' := by
    rw [bumpYounger, List.getElem?_map, he']; simp
  have a3 := step_reset (c := { c with elements := bumpYounger e'.2.age c.elements }) (ts := [⟨[], .reset k, []⟩, ⟨[], .reset k', []⟩])
    (log := log') (j := 1) (todo := []) (out := []) rfl he2
  obtain ⟨x, hx, hxv⟩ : ∃ x, (setAge { c with elements := bumpYounger e'.2.age c.elements } k' 0).elements[k]? = some x ∧
      x.2.value = e.2.value := by
    simp only [setAge, List.getElem?_modify, bumpYounger, List.getElem?_map, he]
    have : ¬ k' = k := fun h => hkk h.symm
    simp only [this, if_false, Option.map_some, Option.map_eq_map]
    refine ⟨_, rfl, ?_⟩
    split <;> rfl
  have a4 := step_reset (ts := [⟨[], .reset k, []⟩, ⟨[], .idle, [.ok (.val e'.2.value)]⟩]) (log := log' ++ [(1, k', true)]) (j := 0)
    (todo := []) (out := []) rfl hx
  refine ⟨0 :: (List.replicate m 0 ++ 1 :: (List.replicate m' 1 ++ [1, 0])), log' ++ [(1, k', true)] ++ [(0, k, true)], ?_⟩
  show run _ (step 0 _) = _
  rw [a1, run_append, hm]
  show run _ (step 1 _) = _
  rw [a2, run_append, hm']
  show step 0 (step 1 _) = _
  rw [a3]
  refine Eq.trans a4 ?_
  rw [hxv]; rfl

/-- C121 (refuted for every capacity but one): take any cache of capacity `n` with at least two elements that was reached by ordinary
calls. The elements used last and least recently can be looked up by two threads such that both get their values, and after some more
puts, none of which is rejected, whatever is put next is undefined. -/
theorem C121_every_capacity_refuted {n : Nat} (calls : List (Call L V)) (hsize : 2 ≤ currentSize (LRU.run (empty n) calls).2) (hn : 0 < n) :
    ∃ (l l' : L) (v v' : V) (sched : List Nat), let c := (LRU.run (empty n) calls).2
      let s := run sched (init c [[.get l], [.get l']])
      s.ts = [⟨[], .idle, [.ok (.val v)]⟩, ⟨[], .idle, [.ok (.val v')]⟩] ∧
      ∀ puts : List (L × V), puts.length = n - 2 → let r := LRU.run s.c (puts.map fun p => .put p.1 p.2)
        (∀ ev ∈ r.1, ev.2 ≠ .exn .runtimeError) →
        (∀ ev ∈ r.1, ev.2 = .ok .unit) ∧ ∀ l' v', hasLabel r.2 l' = false → (call r.2 (.put l' v')).1 = .ub .eraseEnd := by
  obtain ⟨s, hrep, _, hcap⟩ := run_inv hn calls
  generalize (LRU.run (empty n) calls).2 = c at hsize hrep
  have hlen := hrep.length_eq
  have hsize : 2 ≤ c.elements.length := hsize
  have hle := hrep.len
  rw [hcap] at hle
  have atAge : ∀ a, a < c.elements.length → ∃ (k : Nat) (e : L × Entry V), c.elements[k]? = some e ∧ e.2.age = a := by
    intro a ha
    obtain ⟨e, he, _, h3, _⟩ := hrep.item_mem (List.getElem?_eq_getElem (show a < s.items.length by omega))
    obtain ⟨k, hk⟩ := List.getElem?_of_mem he
    exact ⟨k, e, hk, h3⟩
  have idx : ∀ (k : Nat) (e : L × Entry V), c.elements[k]? = some e → index c e.1 = some k := by
    intro k e hk
    have hmem := List.mem_of_getElem? hk
    cases hi : index c e.1 with
    | none =>
      rw [index_none, OMap.find_eq_none] at hi
      have := hi e hmem
      simp [Cmp.equiv_refl] at this
    | some m =>
      obtain ⟨x, hx, hf⟩ := index_some hi
      obtain ⟨h1, h2⟩ := OMap.find_some_mem hf
      have : x = e := hrep.sorted.inj h1 hmem h2
      subst this
      rw [nodes_inj hrep.nodes hx hk rfl]
  obtain ⟨k, e, hk, hage⟩ := atAge 0 (by omega)
  obtain ⟨k', e', hk', hage'⟩ := atAge (c.elements.length - 1) (by omega)
  have hkk : k ≠ k' := by
    rintro rfl
    rw [hk] at hk'; cases hk'
    omega
  obtain ⟨sched, log, hrun⟩ := overlap (idx k e hk) hk (idx k' e' hk') hk' hage hkk
  refine ⟨e.1, e'.1, e.2.value, e'.2.value, sched, ?_⟩
  simp only [hrun]
  refine ⟨trivial, ?_⟩
  intro puts hputs
  -- the elements afterwards
  have final : ∀ (m : Nat) (x : L × Entry V), (setAge (setAge { c with elements := bumpYounger e'.2.age c.elements } k' 0) k 0).elements[m]? = some x →
      ∃ y, c.elements[m]? = some y ∧ x.1 = y.1 ∧ x.2.node = y.2.node ∧
        x.2.age = if m = k ∨ m = k' then 0 else y.2.age + 1 := by
    intro m x hx
    simp only [setAge, List.getElem?_modify, bumpYounger, List.getElem?_map] at hx
    cases hy : c.elements[m]? with
    | none => rw [hy] at hx; simp at hx
    | some y =>
      refine ⟨y, rfl, ?_⟩
      rw [hy] at hx
      simp only [Option.map_some, Option.map_eq_map, Option.some.injEq] at hx
      have hym := List.mem_of_getElem? hy
      have hylt : y.2.age < c.elements.length := by
        have := (List.getElem?_eq_some_iff.1 (hrep.mem_item hym)).1; omega
      by_cases h1 : k = m
      · subst h1
        by_cases h2 : y.2.age < e'.2.age <;> by_cases h3 : k' = k <;> simp [h2, h3] at hx <;> subst hx <;> simp
      · by_cases h3 : k' = m
        · subst h3
          by_cases h2 : y.2.age < e'.2.age <;> simp [h1, h2] at hx <;> subst hx <;> simp
        · have h2 : y.2.age < e'.2.age := by
            rcases Nat.lt_or_ge y.2.age e'.2.age with h | h
            · exact h
            · exact absurd (nodes_inj hrep.nodes hk' hy (by rw [hrep.age_inj hym (List.mem_of_getElem? hk') (by omega)])) h3
          simp [h1, h2, h3] at hx
          subst hx
          have h1' : ¬ m = k := fun h => h1 h.symm
          have h3' : ¬ m = k' := fun h => h3 h.symm
          simp [h1', h3']
  have there : ∀ (m : Nat) (y : L × Entry V), c.elements[m]? = some y →
      ∃ x, (setAge (setAge { c with elements := bumpYounger e'.2.age c.elements } k' 0) k 0).elements[m]? = some x := by
    intro m y hy
    have := (List.getElem?_eq_some_iff.1 hy).1
    exact ⟨_, List.getElem?_eq_getElem (by simp [setAge, bumpYounger]; exact this)⟩
  have hlen' : (setAge (setAge { c with elements := bumpYounger e'.2.age c.elements } k' 0) k 0).elements.length = c.elements.length := by
    simp [setAge, bumpYounger]
  have hkeys : (setAge (setAge { c with elements := bumpYounger e'.2.age c.elements } k' 0) k 0).elements.map (fun e => (e.1, e.2.node)) =
      c.elements.map (fun e => (e.1, e.2.node)) := by
    apply List.ext_getElem?
    intro m
    rw [List.getElem?_map, List.getElem?_map]
    cases hy : c.elements[m]? with
    | none => rw [List.getElem?_eq_none_iff] at hy; rw [List.getElem?_eq_none_iff.2 (by omega)]
    | some y =>
      obtain ⟨x, hx⟩ := there m y hy
      obtain ⟨y', hy', h1, h2, _⟩ := final m x hx
      rw [hy] at hy'; cases hy'
      rw [hx]; simp [h1, h2]
  have hgap : Gap n 1 (setAge (setAge { c with elements := bumpYounger e'.2.age c.elements } k' 0) k 0) := by
    refine ⟨by show c.maximumSize = n; rw [hrep.max, hcap], by omega, ?_, ?_, ?_, by omega, ?_, ?_⟩
    · have h2 : (c.elements.map (fun e => (e.1, e.2.node))).Pairwise (fun a b => Cmp.lt a.1 b.1 = true) := by
        rw [List.pairwise_map]; exact hrep.sorted
      rw [← hkeys, List.pairwise_map] at h2
      exact h2
    · have h1 := hrep.nodes
      have h2 : (c.elements.map (fun e => (e.1, e.2.node))).Pairwise (fun a b => a.2 ≠ b.2) := by
        rw [List.pairwise_map]
        rw [List.nodup_iff_pairwise_ne, List.pairwise_map] at h1
        exact h1
      rw [← hkeys, List.pairwise_map] at h2
      rw [List.nodup_iff_pairwise_ne, List.pairwise_map]
      exact h2
    · intro x hx
      obtain ⟨m, hm⟩ := List.getElem?_of_mem hx
      obtain ⟨y, hy, _, h2, _⟩ := final m x hm
      have := hrep.fresh y (List.mem_of_getElem? hy)
      rw [h2]; exact this
    · intro x hx
      obtain ⟨m, hm⟩ := List.getElem?_of_mem hx
      obtain ⟨y, hy, _, _, h3⟩ := final m x hm
      rw [h3]
      split
      · omega
      · rename_i hne
        intro h0
        have : m = k := nodes_inj hrep.nodes hy hk
          (by rw [hrep.age_inj (List.mem_of_getElem? hy) (List.mem_of_getElem? hk) (by omega)])
        exact hne (.inl this)
    · intro a ha ha1
      rw [hlen'] at ha
      by_cases h0 : a = 0
      · subst h0
        obtain ⟨x, hx⟩ := there k e hk
        obtain ⟨y, _, _, _, h3⟩ := final k x hx
        exact ⟨x, List.mem_of_getElem? hx, by simpa using h3⟩
      · obtain ⟨m, y, hy, hya⟩ := atAge (a - 1) (by omega)
        obtain ⟨x, hx⟩ := there m y hy
        obtain ⟨y', hy', _, _, h3⟩ := final m x hx
        rw [hy] at hy'; cases hy'
        refine ⟨x, List.mem_of_getElem? hx, ?_⟩
        have h1 : m ≠ k := by rintro rfl; rw [hk] at hy; cases hy; omega
        have h2 : m ≠ k' := by rintro rfl; rw [hk'] at hy; cases hy; omega
        rw [h3]; simp [h1, h2]; omega
  exact hgap.puts puts (by omega)

/-! ## Small witnesses and examples -/

/-- A full cache of two elements, 2 used last. -/
def two : Cache Nat Nat := (LRU.run (empty 2) [.put 1 10, .put 2 20]).2

/-- Thread 0 looks up the label used last and stores its 0 after thread 1, which looks up the other one, is finished. -/
def late : List Nat := [0, 0, 0, 0, 0, 0, 1, 1, 1, 1, 1, 1, 1, 1, 1, 0]

/-- Thread 1 looks up the same label as thread 0 while that is about to make the other element older; both do so. -/
def twice : List Nat := [0, 0, 0, 0, 0, 1, 1, 1, 1, 1, 1, 1, 1, 1, 0, 0, 0, 0, 0, 0]

/-- C121 (refuted): two lookups that overlap leave two elements with the age 0, and the next put erases `end()`. -/
theorem C121_refuted : let s := run late (init two [[.get 2], [.get 1]])
    s.ts.map (·.out) = [[.ok (.val 20)], [.ok (.val 10)]] ∧ age s.c 1 = .ok 0 ∧ age s.c 2 = .ok 0 ∧
    (call s.c (.put 3 30)).1 = .ub .eraseEnd := by decide +kernel

/-- C121 (refuted): ages can come to be as large as the cache. -/
theorem C121_age_refuted : let s := run twice (init two [[.get 1], [.get 1]])
    s.ts.map (·.out) = [[.ok (.val 10)], [.ok (.val 10)]] ∧ age s.c 1 = .ok 0 ∧ age s.c 2 = .ok 2 ∧ s.c.maximumSize = 2 ∧
    (call s.c (.put 3 30)).1 = .ub .eraseEnd := by decide +kernel

-- a schedule in which the calls do not overlap
example : let s := run [1, 1, 1, 1, 1, 1, 1, 1, 1, 0, 0, 0, 0, 0, 0, 0, 0, 0, 0] (init two [[.get 2, .age 1], [.get 1]])
    s.ts.map (·.pc) = [.idle, .idle] ∧ s.ts.map (·.out) = [[.ok (.val 20), .ok (.num 1)], [.ok (.val 10)]] ∧
    (answers two [(1, .get 1), (0, .get 2), (0, .age 1)]).1 = [(1, .ok (.val 10)), (0, .ok (.val 20)), (0, .ok (.num 1))] := by
  decide +kernel

/-- `Locked` as a test. -/
def lockedTest : List Nat → St L V → Bool
  | [], _ => true
  | j :: js, s => (List.range s.ts.length).all (fun i => (s.ts[i]?.map (·.pc)) == some .idle || i == j) && lockedTest js (step j s)

theorem lockedTest_sound : ∀ (sched : List Nat) (s : St L V), lockedTest sched s = true → Locked sched s := by
  intro sched
  induction sched with
  | nil => intro _ _; trivial
  | cons j js ih =>
    intro s h
    simp only [lockedTest, Bool.and_eq_true, List.all_eq_true, List.mem_range] at h
    refine ⟨?_, ih _ h.2⟩
    intro i t ht hp
    have := h.1 i (List.getElem?_eq_some_iff.1 ht).1
    rw [ht] at this
    simp [hp] at this
    exact this.symm

-- it is one
example : Locked [1, 1, 1, 1, 1, 1, 1, 1, 1, 0, 0, 0, 0, 0, 0, 0, 0, 0, 0] (init two [[.get 2, .age 1], [.get 1]]) :=
  lockedTest_sound _ _ (by decide +kernel)
example : lockedTest late (init two [[.get 2], [.get 1]]) = false := by decide +kernel

-- a race between `get` and `age`, none with `has_label`
example : (run [0, 0, 0, 0, 0, 0, 1, 0] (init two [[.get 2], [.age 2]])).log =
    [(0, 0, false), (0, 1, false), (0, 1, false), (0, 1, false), (1, 1, false), (0, 1, true)] := by decide +kernel
example : (run [0, 1, 0, 0, 0, 0, 0, 0, 1] (init two [[.get 2], [.has 2, .has 3]])).log.all (fun x => x.1 = 0) = true := by decide +kernel

-- a cache of four: after two puts the next one is undefined
example : 2 ≤ currentSize (LRU.run (empty 4) [.put 1 10, .put 2 20, .put (3 : Nat) (30 : Nat)]).2 := by decide

end Helper.LRU.Threads
