import Verif.LRU.Idiom
/-!
# Property C139: memoisation in threads with a lock for every call
-/
set_option linter.unusedSectionVars false
namespace Helper.LRU.Idiom

variable {L : Type u} {V : Type v} [Cmp L]

/-! ## Specification -/

/-- What the access of `x` should give: what `f` gives for an equivalent label. -/
def Right (f : L → Except Exn V) (x : L) (r : Res (Out V)) : Prop :=
  (∃ y v, Cmp.equiv y x = true ∧ f y = .ok v ∧ r = .ok (.val v)) ∨ ∃ e, f x = .error e ∧ r = .exn e

/-- The schedule lets no thread begin while another one is between its first and its last call: the three calls are made under one lock. -/
def Locked (f : L → Except Exn V) : List Nat → World L V → Prop
  | [], _ => True
  | j :: l, w => (∀ i, i ≠ j → (w.ts i).pc = .idle) ∧ Locked f l (step f j w)

/-- The label is accessed by no thread but `j`. -/
def Alone (qs : Nat → List L) (j : Nat) (x : L) : Prop := ∀ i, i ≠ j → ∀ y ∈ qs i, Cmp.equiv y x = false

variable [StrictWeak L]

/-! ## Proofs -/

/-- The label a thread is at. -/
def PC.at? : PC L V → Option L
  | .idle => none
  | .put x _ => some x
  | .get x => some x

structure Inv (f : L → Except Exn V) (n : Nat) (qs : Nat → List L) (w : World L V) (s : Spec L V) : Prop where
  rep : Rep w.c s
  cap : s.cap = n
  vals : ∀ p ∈ s.items, f p.1 = .ok p.2 ∧ ∃ j, p.1 ∈ qs j
  todo : ∀ j, ∀ x ∈ (w.ts j).todo, x ∈ qs j
  pc : ∀ j x, (w.ts j).pc.at? = some x → x ∈ qs j
  val : ∀ j x v, (w.ts j).pc = .put x v → f x = .ok v
  res : ∀ j, ∀ p ∈ (w.ts j).results, p.1 ∈ qs j ∧ (Right f p.1 p.2 ∨ p.2 = .exn .runtimeError)

theorem inv_start (f : L → Except Exn V) {n : Nat} (hn : 0 < n) (qs : Nat → List L) : Inv f n qs (start n qs) ⟨n, []⟩ where
  rep := rep_empty hn
  cap := rfl
  vals := by simp
  todo := fun _ _ h => h
  pc := fun _ _ h => by cases h
  val := fun _ _ _ h => by cases h
  res := by intro j p hp; simp [start] at hp

theorem set_same (w : World L V) (j : Nat) (t : Client L V) : (w.set j t).ts j = t := by simp [World.set]
theorem set_other (w : World L V) {i j : Nat} (t : Client L V) (h : i ≠ j) : (w.set j t).ts i = w.ts i := by simp [World.set, h]
theorem set_c (w : World L V) (j : Nat) (t : Client L V) : (w.set j t).c = w.c := rfl

/-- A step of thread `j`: the invariant holds for the others, so that only `j` matters. -/
theorem Inv.set {f : L → Except Exn V} {n : Nat} {qs : Nat → List L} {w : World L V} {s s' : Spec L V} (h : Inv f n qs w s) {j : Nat} {t : Client L V}
    {c : Cache L V} (hrep : Rep c s') (hcap : s'.cap = n) (hvals : ∀ p ∈ s'.items, f p.1 = .ok p.2 ∧ ∃ j, p.1 ∈ qs j)
    (htodo : ∀ x ∈ t.todo, x ∈ qs j) (hpc : ∀ x, t.pc.at? = some x → x ∈ qs j) (hval : ∀ x v, t.pc = .put x v → f x = .ok v)
    (hres : ∀ p ∈ t.results, p.1 ∈ qs j ∧ (Right f p.1 p.2 ∨ p.2 = .exn .runtimeError)) :
    Inv f n qs (World.set { w with c := c } j t) s' := by
  refine ⟨hrep, hcap, hvals, fun i => ?_, fun i => ?_, fun i => ?_, fun i => ?_⟩
  all_goals
    by_cases hi : i = j
    · subst hi; rw [set_same]; assumption
    · rw [set_other _ _ hi]
      first | exact h.todo i | exact h.pc i | exact h.val i | exact h.res i

/-- What one step does, case by case. -/
inductive Does (f : L → Except Exn V) (j : Nat) (w : World L V) (s : Spec L V) : World L V → Spec L V → Prop where
  | rest : Does f j w s w s
  | hit {x rest} : (w.ts j).pc = .idle → (w.ts j).todo = x :: rest → s.has x = true →
      Does f j w s (w.set j ⟨rest, .get x, (w.ts j).results⟩) s
  | throws {x rest e} : (w.ts j).pc = .idle → (w.ts j).todo = x :: rest → s.has x = false → f x = .error e →
      Does f j w s (w.set j ⟨rest, .idle, (w.ts j).results ++ [(x, .exn e)]⟩) s
  | miss {x rest v} : (w.ts j).pc = .idle → (w.ts j).todo = x :: rest → s.has x = false → f x = .ok v →
      Does f j w s (w.set j ⟨rest, .put x v, (w.ts j).results⟩) s
  | put {x v c} : (w.ts j).pc = .put x v → s.has x = false → Rep c { s with items := (x, v) :: s.items.take (s.cap - 1) } →
      Does f j w s (World.set { w with c := c } j ⟨(w.ts j).todo, .get x, (w.ts j).results⟩) { s with items := (x, v) :: s.items.take (s.cap - 1) }
  | clash {x v c} : (w.ts j).pc = .put x v → s.has x = true → Rep c s →
      Does f j w s (World.set { w with c := c } j ⟨(w.ts j).todo, .idle, (w.ts j).results ++ [(x, .exn .runtimeError)]⟩) s
  | get {x p c} : (w.ts j).pc = .get x → p ∈ s.items → Cmp.equiv p.1 x = true →
      Rep c { s with items := p :: s.items.filter (fun q => !Cmp.equiv q.1 x) } →
      Does f j w s (World.set { w with c := c } j ⟨(w.ts j).todo, .idle, (w.ts j).results ++ [(x, .ok (.val p.2))]⟩)
        { s with items := p :: s.items.filter (fun q => !Cmp.equiv q.1 x) }
  | lost {x c} : (w.ts j).pc = .get x → s.has x = false → Rep c s →
      Does f j w s (World.set { w with c := c } j ⟨(w.ts j).todo, .idle, (w.ts j).results ++ [(x, .exn .runtimeError)]⟩) s

theorem step_does {f : L → Except Exn V} (j : Nat) {w : World L V} {s : Spec L V} (h : Rep w.c s) : ∃ s', Does f j w s (step f j w) s' := by
  simp only [step]
  cases hpc : (w.ts j).pc with
  | idle =>
    simp only
    cases ht : (w.ts j).todo with
    | nil => exact ⟨s, .rest⟩
    | cons x rest =>
      simp only [h.has_eq]
      cases hx : s.has x with
      | true => exact ⟨s, .hit hpc ht hx⟩
      | false =>
        simp only [Bool.false_eq_true, if_false]
        cases hf : f x with
        | error e => exact ⟨s, .throws hpc ht hx hf⟩
        | ok v => exact ⟨s, .miss hpc ht hx hf⟩
  | put x v =>
    simp only
    have hr := call_refine h (.put x v)
    cases hx : s.has x with
    | true =>
      have e : s.call (.put x v) = (.exn .runtimeError, s) := by simp [Spec.call, hx]
      rw [e] at hr
      generalize call w.c (.put x v) = r at hr
      obtain ⟨r1, r2⟩ := r
      obtain ⟨rfl, h2⟩ := hr
      exact ⟨s, .clash hpc hx h2⟩
    | false =>
      have e : s.call (.put x v) = (.ok .unit, { s with items := (x, v) :: s.items.take (s.cap - 1) }) := by simp [Spec.call, hx]
      rw [e] at hr
      generalize call w.c (.put x v) = r at hr
      obtain ⟨r1, r2⟩ := r
      obtain ⟨rfl, h2⟩ := hr
      exact ⟨_, .put hpc hx h2⟩
  | get x =>
    simp only
    have hr := call_refine h (.get x)
    cases hf : s.items.find? (fun p => Cmp.equiv p.1 x) with
    | none =>
      have e : s.call (.get x) = (.exn .runtimeError, s) := by simp [Spec.call, hf]
      rw [e] at hr
      have hx : s.has x = false := by
        rw [List.find?_eq_none] at hf
        unfold Spec.has
        rw [List.any_eq_false]; exact hf
      generalize call w.c (.get x) = r at hr
      obtain ⟨r1, r2⟩ := r
      obtain ⟨rfl, h2⟩ := hr
      exact ⟨s, .lost hpc hx h2⟩
    | some p =>
      have e : s.call (.get x) = (.ok (.val p.2), { s with items := p :: s.items.filter (fun q => !Cmp.equiv q.1 x) }) := by
        simp [Spec.call, hf]
      rw [e] at hr
      generalize call w.c (.get x) = r at hr
      obtain ⟨r1, r2⟩ := r
      obtain ⟨rfl, h2⟩ := hr
      exact ⟨_, .get hpc (List.mem_of_find?_eq_some hf) (by simpa using List.find?_some hf) h2⟩

theorem Inv.does {f : L → Except Exn V} {n : Nat} {qs : Nat → List L} {w w' : World L V} {s s' : Spec L V} {j : Nat} (h : Inv f n qs w s)
    (hd : Does f j w s w' s') : Inv f n qs w' s' := by
  have hres : ∀ (x : L) (r : Res (Out V)), x ∈ qs j → (Right f x r ∨ r = .exn .runtimeError) →
      ∀ p ∈ (w.ts j).results ++ [(x, r)], p.1 ∈ qs j ∧ (Right f p.1 p.2 ∨ p.2 = .exn .runtimeError) := by
    intro x r hx hr p hp
    rcases List.mem_append.1 hp with hp | hp
    · exact h.res j p hp
    · rw [List.mem_singleton] at hp; subst hp; exact ⟨hx, hr⟩
  have hidle : ∀ x, (PC.idle : PC L V).at? = some x → x ∈ qs j := fun x hx => by cases hx
  cases hd with
  | rest => exact h
  | @hit x rest hpc ht hx =>
    have hq : ∀ y ∈ x :: rest, y ∈ qs j := ht ▸ h.todo j
    exact h.set (c := w.c) h.rep h.cap h.vals (fun y hy => hq y (List.mem_cons_of_mem _ hy))
      (fun y hy => by cases hy; exact hq _ (List.mem_cons_self ..)) (fun _ _ h' => by cases h') (h.res j)
  | @throws x rest e hpc ht hx hf =>
    have hq : ∀ y ∈ x :: rest, y ∈ qs j := ht ▸ h.todo j
    exact h.set (c := w.c) h.rep h.cap h.vals (fun y hy => hq y (List.mem_cons_of_mem _ hy)) hidle (fun _ _ h' => by cases h')
      (hres x _ (hq _ (List.mem_cons_self ..)) (.inl (.inr ⟨e, hf, rfl⟩)))
  | @miss x rest v hpc ht hx hf =>
    have hq : ∀ y ∈ x :: rest, y ∈ qs j := ht ▸ h.todo j
    exact h.set (c := w.c) h.rep h.cap h.vals (fun y hy => hq y (List.mem_cons_of_mem _ hy))
      (fun y hy => by cases hy; exact hq _ (List.mem_cons_self ..)) (fun _ _ h' => by cases h'; exact hf) (h.res j)
  | @put x v c hpc hx hr =>
    have hxq : x ∈ qs j := h.pc j x (by rw [hpc]; rfl)
    refine h.set hr h.cap (fun p hp => ?_) (h.todo j) (fun y hy => by cases hy; exact hxq) (fun _ _ h' => by cases h') (h.res j)
    rcases List.mem_cons.1 hp with rfl | hp
    · exact ⟨h.val j _ _ hpc, j, hxq⟩
    · exact h.vals p (List.mem_of_mem_take hp)
  | @clash x v c hpc hx hr =>
    have hxq : x ∈ qs j := h.pc j x (by rw [hpc]; rfl)
    exact h.set hr h.cap h.vals (h.todo j) hidle (fun _ _ h' => by cases h') (hres x _ hxq (.inr rfl))
  | @get x p c hpc hp hpx hr =>
    have hxq : x ∈ qs j := h.pc j x (by rw [hpc]; rfl)
    refine h.set hr h.cap (fun q hq => ?_) (h.todo j) hidle (fun _ _ h' => by cases h')
      (hres x _ hxq (.inl (.inl ⟨p.1, p.2, hpx, (h.vals p hp).1, rfl⟩)))
    rcases List.mem_cons.1 hq with rfl | hq
    · exact h.vals _ hp
    · exact h.vals q (List.mem_filter.1 hq).1
  | @lost x c hpc hx hr =>
    have hxq : x ∈ qs j := h.pc j x (by rw [hpc]; rfl)
    exact h.set hr h.cap h.vals (h.todo j) hidle (fun _ _ h' => by cases h') (hres x _ hxq (.inr rfl))

theorem Inv.runs {f : L → Except Exn V} {n : Nat} {qs : Nat → List L} : ∀ (sched : List Nat) {w : World L V} {s : Spec L V}, Inv f n qs w s →
    ∃ s', Inv f n qs (runs f sched w) s'
  | [], _, _, h => ⟨_, h⟩
  | j :: l, _, _, h => by
    obtain ⟨s', hd⟩ := step_does (f := f) j h.rep
    exact Inv.runs l (h.does hd)

/-- **C139**: whatever the threads and the schedule, an access gives what `f` gives, or throws the exception of an assertion of the cache; nothing
is undefined, and the cache never has more than `n` elements. -/
theorem C139_values (f : L → Except Exn V) {n : Nat} (hn : 0 < n) (qs : Nat → List L) (sched : List Nat) :
    (∀ j, ∀ p ∈ ((runs f sched (start n qs)).ts j).results, Right f p.1 p.2 ∨ p.2 = .exn .runtimeError) ∧
    currentSize (runs f sched (start n qs)).c ≤ n := by
  obtain ⟨s, h⟩ := Inv.runs sched (inv_start f hn qs)
  refine ⟨fun j p hp => (h.res j p hp).2, ?_⟩
  have := h.rep.len
  rw [h.cap] at this
  unfold currentSize
  rw [h.rep.length_eq]
  exact this

/-! ## Few labels -/

/-- With few labels: nothing is evicted, so that a label put stays. -/
structure Few (f : L → Except Exn V) (qs : Nat → List L) (w : World L V) (s : Spec L V) : Prop where
  stays : ∀ j x, (w.ts j).pc = .get x → s.has x = true
  absent : ∀ j x v, (w.ts j).pc = .put x v → Alone qs j x → s.has x = false
  right : ∀ j, ∀ p ∈ (w.ts j).results, Alone qs j p.1 → Right f p.1 p.2

theorem has_take {s : Spec L V} {n : Nat} {qs : Nat → List L} {D : List L} (hD : ∀ j, ∀ x ∈ qs j, occurs x D = true) (hlen : D.length ≤ n)
    (hitems : ∀ p ∈ s.items, ∃ j, p.1 ∈ qs j) (hdist : Distinct (s.items.map Prod.fst)) {x : L} {j : Nat} (hx : x ∈ qs j) (hno : s.has x = false) :
    s.items.take (n - 1) = s.items := by
  apply List.take_of_length_le
  have hd : Distinct (x :: s.items.map Prod.fst) := by
    refine List.pairwise_cons.2 ⟨fun y hy => ?_, hdist⟩
    obtain ⟨p, hp, rfl⟩ := List.mem_map.1 hy
    rw [Cmp.equiv_comm]
    unfold Spec.has at hno
    rw [List.any_eq_false] at hno
    simpa using hno p hp
  have := hd.length_le (Q := D) (fun y hy => by
    rcases List.mem_cons.1 hy with rfl | hy
    · exact hD j _ hx
    · obtain ⟨p, hp, rfl⟩ := List.mem_map.1 hy
      obtain ⟨i, hi⟩ := hitems p hp
      exact hD i _ hi)
  simp only [List.length_cons, List.length_map] at this
  omega

theorem has_get {s : Spec L V} {p : L × V} {x : L} (hp : p ∈ s.items) (hpx : Cmp.equiv p.1 x = true) (y : L) :
    Spec.has { s with items := p :: s.items.filter (fun q => !Cmp.equiv q.1 x) } y = s.has y := by
  rw [Bool.eq_iff_iff]
  unfold Spec.has
  rw [List.any_eq_true, List.any_eq_true]
  constructor
  · rintro ⟨q, hq, hqy⟩
    rcases List.mem_cons.1 hq with rfl | hq
    · exact ⟨_, hp, hqy⟩
    · exact ⟨q, (List.mem_filter.1 hq).1, hqy⟩
  · rintro ⟨q, hq, hqy⟩
    cases hqx : Cmp.equiv q.1 x with
    | true => exact ⟨p, by simp, Cmp.equiv_trans hpx (Cmp.equiv_trans (Cmp.equiv_symm hqx) hqy)⟩
    | false => exact ⟨q, by simp [hq, hqx], hqy⟩

theorem has_put {s : Spec L V} {x : L} {v : V} (y : L) : Spec.has { s with items := (x, v) :: s.items } y = (Cmp.equiv x y || s.has y) := rfl

/-- A step of thread `j`; the labels in the cache are those before, perhaps with the label that `j` puts. -/
theorem Few.set {f : L → Except Exn V} {qs : Nat → List L} {w : World L V} {s s' : Spec L V} (h : Few f qs w s) {j : Nat} {t : Client L V}
    {c : Cache L V} (hmore : ∀ y, s.has y = true → s'.has y = true)
    (hnew : ∀ i x v, i ≠ j → (w.ts i).pc = .put x v → Alone qs i x → s.has x = false → s'.has x = false)
    (hget : ∀ x, t.pc = .get x → s'.has x = true) (hput : ∀ x v, t.pc = .put x v → s'.has x = false)
    (hres : ∀ p ∈ t.results, Alone qs j p.1 → Right f p.1 p.2) : Few f qs (World.set { w with c := c } j t) s' := by
  refine ⟨fun i => ?_, fun i => ?_, fun i => ?_⟩
  · by_cases hi : i = j
    · subst hi; rw [set_same]; exact hget
    · rw [set_other _ _ hi]; exact fun x hx => hmore x (h.stays i x hx)
  · by_cases hi : i = j
    · subst hi; rw [set_same]; exact fun x v hx _ => hput x v hx
    · rw [set_other _ _ hi]; exact fun x v hx ha => hnew i x v hi hx ha (h.absent i x v hx ha)
  · by_cases hi : i = j
    · subst hi; rw [set_same]; exact hres
    · rw [set_other _ _ hi]; exact h.right i

theorem Few.does {f : L → Except Exn V} {n : Nat} {qs : Nat → List L} {D : List L} (hD : ∀ j, ∀ x ∈ qs j, occurs x D = true) (hlen : D.length ≤ n)
    {w w' : World L V} {s s' : Spec L V} {j : Nat} (hi : Inv f n qs w s) (h : Few f qs w s) (hd : Does f j w s w' s') : Few f qs w' s' := by
  have hres : ∀ (x : L) (r : Res (Out V)), (Alone qs j x → Right f x r) →
      ∀ p ∈ (w.ts j).results ++ [(x, r)], Alone qs j p.1 → Right f p.1 p.2 := by
    intro x r hr p hp
    rcases List.mem_append.1 hp with hp | hp
    · exact h.right j p hp
    · rw [List.mem_singleton] at hp; subst hp; exact hr
  cases hd with
  | rest => exact h
  | @hit x rest hpc ht hx =>
    exact h.set (c := w.c) (fun _ => id) (fun _ _ _ _ _ _ => id) (fun y hy => by cases hy; exact hx) (fun _ _ h' => by cases h') (h.right j)
  | @throws x rest e hpc ht hx hf =>
    exact h.set (c := w.c) (fun _ => id) (fun _ _ _ _ _ _ => id) (fun y hy => by cases hy) (fun _ _ h' => by cases h')
      (hres x _ fun _ => .inr ⟨e, hf, rfl⟩)
  | @miss x rest v hpc ht hx hf =>
    exact h.set (c := w.c) (fun _ => id) (fun _ _ _ _ _ _ => id) (fun y hy => by cases hy) (fun _ _ h' => by cases h'; exact hx) (h.right j)
  | @put x v c hpc hx hr =>
    have hxq : x ∈ qs j := hi.pc j x (by rw [hpc]; rfl)
    have hdist : Distinct (s.items.map Prod.fst) := by
      unfold Distinct; rw [List.pairwise_map]; exact hi.rep.items_pairwise
    have htake : s.items.take (s.cap - 1) = s.items := by
      rw [hi.cap]
      exact has_take hD hlen (fun p hp => (hi.vals p hp).2) hdist hxq hx
    rw [htake]
    refine h.set (fun y hy => by rw [has_put, hy, Bool.or_true]) (fun i y u hij hpi ha hno => ?_)
      (fun y hy => by cases hy; rw [has_put, Cmp.equiv_refl, Bool.true_or]) (fun _ _ h' => by cases h') (h.right j)
    rw [has_put, hno, Bool.or_false]
    exact ha j (fun e => hij e.symm) x hxq
  | @clash x v c hpc hx hr =>
    refine h.set (fun _ => id) (fun _ _ _ _ _ _ => id) (fun y hy => by cases hy) (fun _ _ h' => by cases h') (hres x _ fun ha => ?_)
    rw [h.absent j x v hpc ha] at hx; cases hx
  | @get x p c hpc hp hpx hr =>
    exact h.set (fun y hy => by rw [has_get hp hpx]; exact hy) (fun i y u _ _ _ hno => by rw [has_get hp hpx]; exact hno) (fun y hy => by cases hy)
      (fun _ _ h' => by cases h') (hres x _ fun _ => .inl ⟨p.1, p.2, hpx, (hi.vals p hp).1, rfl⟩)
  | @lost x c hpc hx hr =>
    rw [h.stays j x hpc] at hx; cases hx

theorem Few.runs {f : L → Except Exn V} {n : Nat} {qs : Nat → List L} {D : List L} (hD : ∀ j, ∀ x ∈ qs j, occurs x D = true) (hlen : D.length ≤ n) :
    ∀ (sched : List Nat) {w : World L V} {s : Spec L V}, Inv f n qs w s → Few f qs w s → ∃ s', Few f qs (runs f sched w) s'
  | [], _, _, _, h => ⟨_, h⟩
  | j :: l, _, _, hi, h => by
    obtain ⟨s', hd⟩ := step_does (f := f) j hi.rep
    exact Few.runs hD hlen l (hi.does hd) (h.does hD hlen hi hd)

/-- **C139**: if there are no more different labels than the cache has places, an access of a label that no other thread accesses gives what `f`
gives. -/
theorem C139_few_partial (f : L → Except Exn V) {n : Nat} (hn : 0 < n) (qs : Nat → List L) (D : List L) (hD : ∀ j, ∀ x ∈ qs j, occurs x D = true)
    (hlen : D.length ≤ n) (sched : List Nat) (j : Nat) :
    ∀ p ∈ ((runs f sched (start n qs)).ts j).results, Alone qs j p.1 → Right f p.1 p.2 := by
  have h0 : Few f qs (start n qs) ⟨n, []⟩ :=
    ⟨(fun _ _ h => by cases h), (fun _ _ _ h => by cases h), (fun _ p hp => by cases hp)⟩
  obtain ⟨s', h⟩ := Few.runs hD hlen sched (inv_start f hn qs) h0
  exact h.right j

/-! ## One lock for the three calls -/

structure Lock (f : L → Except Exn V) (w : World L V) (s : Spec L V) : Prop where
  stays : ∀ j x, (w.ts j).pc = .get x → s.has x = true
  absent : ∀ j x v, (w.ts j).pc = .put x v → s.has x = false
  right : ∀ j, ∀ p ∈ (w.ts j).results, Right f p.1 p.2

theorem Lock.set {f : L → Except Exn V} {w : World L V} {s s' : Spec L V} (h : Lock f w s) {j : Nat} (hidle : ∀ i, i ≠ j → (w.ts i).pc = .idle)
    {t : Client L V} {c : Cache L V} (hget : ∀ x, t.pc = .get x → s'.has x = true) (hput : ∀ x v, t.pc = .put x v → s'.has x = false)
    (hres : ∀ p ∈ t.results, Right f p.1 p.2) : Lock f (World.set { w with c := c } j t) s' := by
  refine ⟨fun i => ?_, fun i => ?_, fun i => ?_⟩
  · by_cases hi : i = j
    · subst hi; rw [set_same]; exact hget
    · rw [set_other _ _ hi, hidle i hi]; exact fun x hx => by cases hx
  · by_cases hi : i = j
    · subst hi; rw [set_same]; exact hput
    · rw [set_other _ _ hi, hidle i hi]; exact fun x v hx => by cases hx
  · by_cases hi : i = j
    · subst hi; rw [set_same]; exact hres
    · rw [set_other _ _ hi]; exact h.right i

theorem Lock.does {f : L → Except Exn V} {n : Nat} {qs : Nat → List L} {w w' : World L V} {s s' : Spec L V} {j : Nat} (hi : Inv f n qs w s)
    (h : Lock f w s) (hidle : ∀ i, i ≠ j → (w.ts i).pc = .idle) (hd : Does f j w s w' s') : Lock f w' s' := by
  have hres : ∀ (x : L) (r : Res (Out V)), Right f x r → ∀ p ∈ (w.ts j).results ++ [(x, r)], Right f p.1 p.2 := by
    intro x r hr p hp
    rcases List.mem_append.1 hp with hp | hp
    · exact h.right j p hp
    · rw [List.mem_singleton] at hp; subst hp; exact hr
  cases hd with
  | rest => exact h
  | @hit x rest hpc ht hx => exact h.set (c := w.c) hidle (fun y hy => by cases hy; exact hx) (fun _ _ h' => by cases h') (h.right j)
  | @throws x rest e hpc ht hx hf =>
    exact h.set (c := w.c) hidle (fun y hy => by cases hy) (fun _ _ h' => by cases h') (hres x _ (.inr ⟨e, hf, rfl⟩))
  | @miss x rest v hpc ht hx hf =>
    exact h.set (c := w.c) hidle (fun y hy => by cases hy) (fun _ _ h' => by cases h'; exact hx) (h.right j)
  | @put x v c hpc hx hr =>
    exact h.set hidle (fun y hy => by cases hy; simp [Spec.has]) (fun _ _ h' => by cases h') (h.right j)
  | @clash x v c hpc hx hr => rw [h.absent j x v hpc] at hx; cases hx
  | @get x p c hpc hp hpx hr =>
    exact h.set hidle (fun y hy => by cases hy) (fun _ _ h' => by cases h') (hres x _ (.inl ⟨p.1, p.2, hpx, (hi.vals p hp).1, rfl⟩))
  | @lost x c hpc hx hr => rw [h.stays j x hpc] at hx; cases hx

theorem Lock.runs {f : L → Except Exn V} {n : Nat} {qs : Nat → List L} : ∀ {sched : List Nat} {w : World L V} {s : Spec L V}, Inv f n qs w s →
    Lock f w s → Locked f sched w → ∃ s', Lock f (runs f sched w) s'
  | [], _, _, _, h, _ => ⟨_, h⟩
  | j :: l, _, _, hi, h, hl => by
    obtain ⟨s', hd⟩ := step_does (f := f) j hi.rep
    exact Lock.runs (sched := l) (hi.does hd) (h.does hi hl.1 hd) hl.2

/-- **C139**: with one lock for the three calls, all accesses give what `f` gives, whatever the labels. -/
theorem C139_locked_partial (f : L → Except Exn V) {n : Nat} (hn : 0 < n) (qs : Nat → List L) (sched : List Nat) (hl : Locked f sched (start n qs))
    (j : Nat) : ∀ p ∈ ((runs f sched (start n qs)).ts j).results, Right f p.1 p.2 := by
  have h0 : Lock f (start n qs) ⟨n, []⟩ := ⟨(fun _ _ h => by cases h), (fun _ _ _ h => by cases h), (fun _ p hp => by cases hp)⟩
  obtain ⟨s', h⟩ := Lock.runs (inv_start f hn qs) h0 hl
  exact h.right j

/-! ## What goes wrong -/

/-- **C139** is false: two threads that access the same label at the same time both find that it is not there, and the second `put` throws. This
happens for every function, label and capacity. -/
theorem C139_put_refuted (f : L → Except Exn V) {n : Nat} (hn : 0 < n) (x : L) (v : V) (hf : f x = .ok v) (qs : Nat → List L) (h0 : qs 0 = [x])
    (h1 : qs 1 = [x]) : ((runs f [0, 1, 0, 1] (start n qs)).ts 1).results = [(x, .exn .runtimeError)] := by
  have hr0 : Rep (empty n : Cache L V) ⟨n, []⟩ := rep_empty hn
  have hmiss : hasLabel (empty n : Cache L V) x = false := by rw [hr0.has_eq]; rfl
  have s1 : step f 0 (start n qs) = World.set (start n qs) 0 ⟨[], .put x v, []⟩ := by
    simp [step, start, h0, hmiss, hf]
  have s2 : step f 1 (World.set (start n qs) 0 ⟨[], .put x v, []⟩) = World.set (World.set (start n qs) 0 ⟨[], .put x v, []⟩) 1 ⟨[], .put x v, []⟩ := by
    simp [step, start, World.set, h1, hmiss, hf]
  have hp := call_refine hr0 (.put x v)
  have e : Spec.call (⟨n, []⟩ : Spec L V) (.put x v) = (.ok .unit, ⟨n, [(x, v)]⟩) := by simp [Spec.call, Spec.has]
  rw [e] at hp
  obtain ⟨p1, p2⟩ := hp
  have hq := call_refine p2 (.put x v)
  have e' : Spec.call (⟨n, [(x, v)]⟩ : Spec L V) (.put x v) = (.exn .runtimeError, ⟨n, [(x, v)]⟩) := by simp [Spec.call, Spec.has]
  rw [e'] at hq
  obtain ⟨q1, _⟩ := hq
  show ((step f 1 (step f 0 (step f 1 (step f 0 (start n qs))))).ts 1).results = _
  rw [s1, s2]
  have hc : call (empty n) (.put x v) = (.ok .unit, (call (empty n) (.put x v)).2) := Prod.ext p1 rfl
  generalize (call (empty n : Cache L V) (.put x v)).2 = c' at hc q1
  have hc' : call c' (.put x v) = (.exn .runtimeError, (call c' (.put x v)).2) := Prod.ext q1 rfl
  simp [step, start, World.set, hc]
  rw [hc']
  rfl

/-- One access without interruption, of a label that is not there. -/
theorem round {f : L → Except Exn V} {w : World L V} {s : Spec L V} (h : Rep w.c s) {j : Nat} {x : L} {rest : List L} (hpc : (w.ts j).pc = .idle)
    (ht : (w.ts j).todo = x :: rest) (hx : s.has x = false) {v : V} (hf : f x = .ok v) :
    ∃ c r, Rep c { s with items := (x, v) :: (s.items.take (s.cap - 1)).filter (fun q => !Cmp.equiv q.1 x) } ∧
      runs f [j, j, j] w = World.set { w with c := c } j ⟨rest, .idle, r⟩ := by
  have hp := call_refine h (.put x v)
  have e : Spec.call s (.put x v) = (.ok .unit, { s with items := (x, v) :: s.items.take (s.cap - 1) }) := by simp [Spec.call, hx]
  rw [e] at hp
  obtain ⟨p1, p2⟩ := hp
  have hg := call_refine p2 (.get x)
  have e' : Spec.call ({ s with items := (x, v) :: s.items.take (s.cap - 1) } : Spec L V) (.get x) =
      (.ok (.val v), { s with items := (x, v) :: (s.items.take (s.cap - 1)).filter (fun q => !Cmp.equiv q.1 x) }) := by
    simp [Spec.call]
  rw [e'] at hg
  obtain ⟨g1, g2⟩ := hg
  refine ⟨_, (w.ts j).results ++ [(x, .ok (.val v))], g2, ?_⟩
  have hc : call w.c (.put x v) = (.ok .unit, (call w.c (.put x v)).2) := Prod.ext p1 rfl
  generalize (call w.c (.put x v)).2 = c' at hc g1
  have s1 : step f j w = World.set w j ⟨rest, .put x v, (w.ts j).results⟩ := by
    simp only [step, hpc, ht, h.has_eq, hx, hf, Bool.false_eq_true, if_false]
  show step f j (step f j (step f j w)) = _
  rw [s1]
  simp [step, World.set, hc, g1]
  funext i
  split <;> rfl

/-- The labels `k, k-1, …, 0` with their values. -/
def down (k : Nat) : List (Int × Int) := (List.range (k + 1)).reverse.map fun (i : Nat) => ((i : Int), (i : Int))

theorem down_succ (k : Nat) : down (k + 1) = (((k + 1 : Nat) : Int), ((k + 1 : Nat) : Int)) :: down k := by
  simp [down, List.range_succ]

theorem down_mem {k : Nat} {p : Int × Int} (h : p ∈ down k) : 0 ≤ p.1 ∧ p.1 ≤ k := by
  simp only [down, List.mem_map, List.mem_reverse, List.mem_range] at h
  obtain ⟨i, hi, rfl⟩ := h
  simp; omega

theorem rounds {n : Nat} (hn : 0 < n) : ∀ (m k : Nat) {w : World Int Int} {r : List (Int × Res (Out Int))} {t0 : Client Int Int},
    Rep w.c ⟨n, (down k).take n⟩ →
    w.ts 1 = ⟨(List.range m).map (fun i => ((k + 1 + i : Nat) : Int)), .idle, r⟩ → w.ts 0 = t0 →
    Rep (runs .ok (List.replicate (3 * m) 1) w).c ⟨n, (down (k + m)).take n⟩ ∧ (runs .ok (List.replicate (3 * m) 1) w).ts 0 = t0
  | 0, k, w, r, t0, h, ht, h0 => ⟨h, h0⟩
  | m + 1, k, w, r, t0, h, ht, h0 => by
    have hx : Spec.has (⟨n, (down k).take n⟩ : Spec Int Int) ((k + 1 : Nat) : Int) = false := by
      unfold Spec.has
      rw [List.any_eq_false]
      intro p hp he
      have h1 := down_mem (List.mem_of_mem_take hp)
      rw [StrictTotal.eq_of_equiv he] at h1
      omega
    have htodo : (w.ts 1).todo = ((k + 1 : Nat) : Int) :: (List.range m).map (fun i => ((k + 1 + 1 + i : Nat) : Int)) := by
      rw [ht]
      simp only [List.range_succ_eq_map, List.map_cons, List.map_map]
      congr 1
      apply List.map_congr_left
      intro i _
      simp only [Function.comp]
      congr 1; omega
    obtain ⟨c, r', hr, hrun⟩ := round (f := .ok) h (by rw [ht]) htodo hx (v := ((k + 1 : Nat) : Int)) rfl
    have hitems : (((k + 1 : Nat) : Int), ((k + 1 : Nat) : Int)) :: (((down k).take n).take (n - 1)).filter (fun q => !Cmp.equiv q.1 ((k + 1 : Nat) : Int)) =
        (down (k + 1)).take n := by
      obtain ⟨n', rfl⟩ : ∃ n', n = n' + 1 := ⟨n - 1, by omega⟩
      rw [down_succ, List.take_succ_cons, List.take_take]
      congr 1
      rw [show min (n' + 1 - 1) (n' + 1) = n' by omega]
      apply List.filter_eq_self.2
      intro p hp
      have h1 := down_mem (List.mem_of_mem_take hp)
      cases he : Cmp.equiv p.1 ((k + 1 : Nat) : Int) with
      | false => rfl
      | true => rw [StrictTotal.eq_of_equiv he] at h1; omega
    have hr' : Rep c (⟨n, (down (k + 1)).take n⟩ : Spec Int Int) := by rw [← hitems]; exact hr
    have hrep : List.replicate (3 * (m + 1)) 1 = 1 :: 1 :: 1 :: List.replicate (3 * m) 1 := by
      rw [show 3 * (m + 1) = 3 * m + 1 + 1 + 1 by omega]; rfl
    have hsplit : runs .ok (List.replicate (3 * (m + 1)) 1) w = runs .ok (List.replicate (3 * m) 1) (runs .ok [1, 1, 1] w) := by rw [hrep]; rfl
    rw [hsplit, hrun]
    have := rounds hn m (k + 1) (w := World.set { w with c := c } 1 ⟨(List.range m).map (fun i => ((k + 1 + 1 + i : Nat) : Int)), .idle, r'⟩)
      (r := r') (t0 := t0) hr' (set_same ..) (by rw [set_other _ _ (by decide)]; exact h0)
    rw [show k + (m + 1) = k + 1 + m by omega]
    exact this

theorem runs_append (f : L → Except Exn V) : ∀ (a b : List Nat) (w : World L V), runs f (a ++ b) w = runs f b (runs f a w)
  | [], _, _ => rfl
  | j :: a, b, w => runs_append f a b (step f j w)

/-- **C139** is false for different labels too, in a cache of any capacity `n`: while one thread is between its `put` and its `get`, another one can
access `n` labels, and the `get` throws. -/
theorem C139_get_refuted {n : Nat} (hn : 0 < n) :
    let qs : Nat → List Int := fun j => if j = 0 then [0] else if j = 1 then (List.range n).map (fun i => ((0 + 1 + i : Nat) : Int)) else []
    (∀ x ∈ qs 0, ∀ y ∈ qs 1, Cmp.equiv x y = false) ∧
    ((runs .ok ([0, 0] ++ List.replicate (3 * n) 1 ++ [0]) (start n qs : World Int Int)).ts 0).results = [(0, .exn .runtimeError)] := by
  intro qs
  constructor
  · intro x hx y hy
    simp [qs] at hx hy
    obtain ⟨i, _, rfl⟩ := hy
    subst hx
    cases he : Cmp.equiv (0 : Int) (0 + 1 + (i : Int)) with
    | false => simpa using he
    | true => have := StrictTotal.eq_of_equiv he; omega
  · have hr0 : Rep (empty n : Cache Int Int) ⟨n, []⟩ := rep_empty hn
    have hmiss : hasLabel (empty n : Cache Int Int) 0 = false := by rw [hr0.has_eq]; rfl
    have hp := call_refine hr0 (.put 0 0)
    have e : Spec.call (⟨n, []⟩ : Spec Int Int) (.put 0 0) = (.ok .unit, ⟨n, [(0, 0)]⟩) := by simp [Spec.call, Spec.has]
    rw [e] at hp
    obtain ⟨p1, p2⟩ := hp
    have hc : call (empty n : Cache Int Int) (.put 0 0) = (.ok .unit, (call (empty n) (.put 0 0)).2) := Prod.ext p1 rfl
    generalize (call (empty n : Cache Int Int) (.put 0 0)).2 = c' at hc p2
    have h2 : runs .ok [0, 0] (start n qs : World Int Int) = World.set { start n qs with c := c' } 0 ⟨[], .get 0, []⟩ := by
      simp [runs, step, start, World.set, qs, hmiss, hc]
      funext i
      split <;> rfl
    have hd : (down 0).take n = [(0, 0)] := by
      obtain ⟨n', rfl⟩ : ∃ n', n = n' + 1 := ⟨n - 1, by omega⟩
      simp [down]
    rw [runs_append, runs_append, h2]
    have := rounds hn n 0 (w := World.set { start n qs with c := c' } 0 ⟨[], .get 0, []⟩) (r := []) (t0 := ⟨[], .get 0, []⟩) (by rw [hd]; exact p2)
      (by rw [set_other _ _ (by decide)]; simp [start, qs]) (set_same ..)
    obtain ⟨hr, ht⟩ := this
    generalize runs .ok (List.replicate (3 * n) 1) (World.set { start n qs with c := c' } 0 ⟨[], .get 0, []⟩) = w at hr ht
    have hno : ((down (0 + n)).take n).find? (fun p => Cmp.equiv p.1 0) = none := by
      rw [List.find?_eq_none]
      intro p hp he
      have h0 := StrictTotal.eq_of_equiv he
      have hlast : down (0 + n) = (List.range n).reverse.map (fun (i : Nat) => (((i + 1 : Nat) : Int), ((i + 1 : Nat) : Int))) ++ [(0, 0)] := by
        rw [Nat.zero_add, down, List.range_succ_eq_map]
        simp [Function.comp_def]
      rw [hlast, List.take_append_of_le_length (by simp)] at hp
      have := List.mem_of_mem_take hp
      simp only [List.mem_map] at this
      obtain ⟨i, _, rfl⟩ := this
      simp at h0
      omega
    have hg := call_refine hr (.get 0)
    rw [show Spec.call (⟨n, (down (0 + n)).take n⟩ : Spec Int Int) (.get 0) = (.exn .runtimeError, ⟨n, (down (0 + n)).take n⟩) by
      simp only [Spec.call, hno]] at hg
    simp [runs, step, ht, World.set, hg.1]

/-! ## Examples -/

example : ((runs (fun x => .ok (2 * x)) [0, 0, 0, 1, 1] (start 2 (fun _ => [(7 : Int)]) : World Int Int)).ts 1).results = [(7, .ok (.val 14))] := by
  decide +kernel

theorem step_other (f : L → Except Exn V) {i j : Nat} (h : i ≠ j) (w : World L V) : (step f j w).ts i = w.ts i := by
  simp only [step]
  repeat' split
  all_goals first | rfl | exact set_other _ _ h

example : Locked (fun x => .ok (2 * x)) [0, 0, 0] (start 2 (fun _ => [(7 : Int)]) : World Int Int) := by
  refine ⟨fun i _ => rfl, fun i hi => ?_, fun i hi => ?_, trivial⟩
  · rw [step_other _ hi]; rfl
  · rw [step_other _ hi, step_other _ hi]; rfl

end Helper.LRU.Idiom
