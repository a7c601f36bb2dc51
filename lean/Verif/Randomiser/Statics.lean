import Verif.Randomiser.Model
set_option linter.unusedSectionVars false
/-!
# Randomisers in the initialisers of global variables (randomiser.hpp:42-59, 71)

Each translation unit that includes the header has a generator of its own (line 59), which is initialised at the start of the program,
like the other global variables of the unit and before those defined after it. The order between units is not specified
([basic.start.dynamic]); a schedule is any sequence of units, each entry initialising the next variable of the unit. The function `get()`
is compiled for each type of randomiser in every unit that uses it; the linker keeps one of these versions, and with it the generator
of one unit: `pick` (this breaks the one-definition rule; the model is what linkers do).
-/
namespace Helper.Randomiser.Statics

variable {V E : Type}

/-- Initialisers of global variables. -/
inductive Init (V : Type) where
  /-- line 59 -/ | engine
  /-- a variable whose initialiser draws from these randomisers, given with their types -/ | user (uses : List (Nat × Randomiser V))

/-- The initialisers that each unit has still to do, the engines that are initialised, and the values drawn so far. -/
structure St (V E : Type) where
  rest : List (List (Init V))
  engines : Nat → Option E
  log : List V

/-- Line 71: a draw uses the engine of the unit whose version of `get()` was kept. -/
def draw (d : Dist V E) (pick : Nat → Nat) (t : Nat) (r : Randomiser V) (es : Nat → Option E) : Res (V × (Nat → Option E)) :=
  match es (pick t) with
  | none => .ub .notAlive
  | some e => .ok ((get d r e).1, fun k => if k = pick t then some (get d r e).2 else es k)

def drawAll (d : Dist V E) (pick : Nat → Nat) : List (Nat × Randomiser V) → (Nat → Option E) → List V → Res ((Nat → Option E) × List V)
  | [], es, log => .ok (es, log)
  | (t, r) :: us, es, log => (draw d pick t r es).bind fun (v, es') => drawAll d pick us es' (log ++ [v])

/-- The next initialiser of unit `u`. Lines 44-52: the engine gets a seed. -/
def step (d : Dist V E) (pick : Nat → Nat) (seed : Nat → E) (u : Nat) (s : St V E) : Res (St V E) :=
  match s.rest[u]? with
  | some (.engine :: is) => .ok ⟨s.rest.set u is, fun k => if k = u then some (seed u) else s.engines k, s.log⟩
  | some (.user us :: is) => (drawAll d pick us s.engines s.log).bind fun (es, log) => .ok ⟨s.rest.set u is, es, log⟩
  | _ => .ok s

def run (d : Dist V E) (pick : Nat → Nat) (seed : Nat → E) : List Nat → St V E → Res (St V E)
  | [], s => .ok s
  | u :: sched, s => (step d pick seed u s).bind (run d pick seed sched)

/-- The start of a program. -/
def start (units : List (List (Init V))) : St V E := ⟨units, fun _ => none, []⟩

/-- A unit that includes the header and then defines variables. -/
def including (users : List (List (Nat × Randomiser V))) : List (Init V) := .engine :: users.map .user

/-! ## Lemmas -/

theorem drawAll_ok (d : Dist V E) (pick : Nat → Nat) (us : List (Nat × Randomiser V)) (es : Nat → Option E) (log : List V)
    (h : ∀ t r, (t, r) ∈ us → (es (pick t)).isSome = true) :
    ∃ es' log', drawAll d pick us es log = .ok (es', log') ∧ ∀ k, (es' k).isSome = (es k).isSome := by
  induction us generalizing es log with
  | nil => exact ⟨es, log, rfl, fun _ => rfl⟩
  | cons a us ih =>
    obtain ⟨t, r⟩ := a
    have ht := h t r (by simp)
    obtain ⟨e, he⟩ := Option.isSome_iff_exists.mp ht
    let es1 : Nat → Option E := fun k => if k = pick t then some (get d r e).2 else es k
    have hes : ∀ k, (es1 k).isSome = (es k).isSome := by
      intro k
      by_cases hk : k = pick t
      · simp only [es1, if_pos hk]; rw [hk, he]; rfl
      · simp only [es1, if_neg hk]
    obtain ⟨es', log', h1, h2⟩ := ih es1 (log ++ [(get d r e).1]) fun t' r' hm => by
      rw [hes]; exact h t' r' (List.mem_cons_of_mem _ hm)
    refine ⟨es', log', ?_, fun k => (h2 k).trans (hes k)⟩
    simp only [drawAll, draw, he, Res.bind]
    exact h1

theorem drawAll_ub (d : Dist V E) (pick : Nat → Nat) (us : List (Nat × Randomiser V)) (es : Nat → Option E) (log : List V)
    (h : ∃ t r, (t, r) ∈ us ∧ es (pick t) = none) : drawAll d pick us es log = .ub .notAlive := by
  induction us generalizing es log with
  | nil => obtain ⟨t, r, hm, _⟩ := h; cases hm
  | cons a us ih =>
    obtain ⟨t, r⟩ := a
    cases he : es (pick t) with
    | none => simp [drawAll, draw, he, Res.bind]
    | some e =>
      simp only [drawAll, draw, he, Res.bind]
      apply ih
      obtain ⟨t', r', hm, hn⟩ := h
      rcases List.mem_cons.mp hm with hm | hm
      · cases hm; rw [he] at hn; cases hn
      · refine ⟨t', r', hm, ?_⟩
        have : pick t' ≠ pick t := fun e' => by rw [e', he] at hn; cases hn
        simp [this, hn]

/-- The units that have begun have their engines, and their remaining initialisers use only these. -/
def Good (pick : Nat → Nat) (s : St V E) : Prop :=
  ∀ u is, s.rest[u]? = some is →
    (∀ us, .user us ∈ is → ∀ t r, (t, r) ∈ us → pick t = u) ∧
    ((s.engines u).isSome = true ∨ ∀ us, .user us ∈ is → us = [] ∨ ∃ is', is = .engine :: is')

theorem good_step (d : Dist V E) (pick : Nat → Nat) (seed : Nat → E) (u : Nat) (s : St V E) (h : Good pick s) :
    ∃ s', step d pick seed u s = .ok s' ∧ Good pick s' ∧ (∀ k, (s.engines k).isSome = true → (s'.engines k).isSome = true) := by
  unfold step
  split
  · rename_i is hs
    refine ⟨_, rfl, ?_, ?_⟩
    · intro v js hv
      by_cases e : u = v
      · subst e
        have hlt : u < s.rest.length := (List.getElem?_eq_some_iff.mp hs).1
        simp only [List.getElem?_set_self hlt, Option.some.injEq] at hv
        subst hv
        exact ⟨fun us hus => (h u _ hs).1 us (List.mem_cons_of_mem _ hus), .inl (by simp)⟩
      · simp only [List.getElem?_set_ne e] at hv
        obtain ⟨h1, h2⟩ := h v js hv
        refine ⟨h1, h2.imp_left fun h2 => ?_⟩
        have : ¬ v = u := fun e' => e e'.symm
        simp [this, h2]
    · intro k hk
      by_cases e : k = u <;> simp [e, hk]
  · rename_i us is hs
    have hlt : u < s.rest.length := (List.getElem?_eq_some_iff.mp hs).1
    obtain ⟨h1, h2⟩ := h u _ hs
    have hr : ∀ t r, (t, r) ∈ us → (s.engines (pick t)).isSome = true := by
      intro t r hm
      rw [h1 us (by simp) t r hm]
      rcases h2 with h2 | h2
      · exact h2
      · rcases h2 us (by simp) with rfl | ⟨is', e⟩
        · cases hm
        · cases e
    obtain ⟨es', log', e1, e2⟩ := drawAll_ok d pick us s.engines s.log hr
    refine ⟨⟨s.rest.set u is, es', log'⟩, by rw [e1]; rfl, ?_, fun k hk => by rw [e2]; exact hk⟩
    intro v js hv
    by_cases e : u = v
    · subst e
      simp only [List.getElem?_set_self hlt, Option.some.injEq] at hv
      subst hv
      refine ⟨fun us' hus => h1 us' (List.mem_cons_of_mem _ hus), ?_⟩
      rcases h2 with h2 | h2
      · exact .inl (by rw [e2]; exact h2)
      · refine .inr fun us' hus => ?_
        rcases h2 us' (List.mem_cons_of_mem _ hus) with rfl | ⟨is', e⟩
        · exact .inl rfl
        · cases e
    · simp only [List.getElem?_set_ne e] at hv
      obtain ⟨h1, h2⟩ := h v js hv
      exact ⟨h1, h2.imp_left fun h2 => by rw [e2]; exact h2⟩
  · exact ⟨s, rfl, h, fun _ hk => hk⟩

theorem good_run (d : Dist V E) (pick : Nat → Nat) (seed : Nat → E) (sched : List Nat) (s : St V E) (h : Good pick s) :
    ∃ s', run d pick seed sched s = .ok s' ∧ Good pick s' := by
  induction sched generalizing s with
  | nil => exact ⟨s, rfl, h⟩
  | cons u sched ih =>
    obtain ⟨s1, e1, g1, _⟩ := good_step d pick seed u s h
    obtain ⟨s', e2, g2⟩ := ih s1 g1
    exact ⟨s', by simp [run, e1, Res.bind, e2], g2⟩

/-- Running unit `u` alone, up to a use of the generator of another unit. -/
theorem run_alone (d : Dist V E) (pick : Nat → Nat) (seed : Nat → E) (u : Nat) (pre post : List (Init V)) (us : List (Nat × Randomiser V))
    (hus : ∃ t r, (t, r) ∈ us ∧ pick t ≠ u) (s : St V E) (hs : s.rest[u]? = some (pre ++ .user us :: post))
    (he : ∀ k, k ≠ u → s.engines k = none) (hpre : ∀ vs, .user vs ∈ pre → ∀ t r, (t, r) ∈ vs → pick t = u)
    (hu : (s.engines u).isSome = true ∨ ∃ pre', pre = .engine :: pre') :
    run d pick seed (List.replicate (pre.length + 1) u) s = .ub .notAlive := by
  induction pre generalizing s with
  | nil =>
    obtain ⟨t, r, hm, ht⟩ := hus
    have : drawAll d pick us s.engines s.log = .ub .notAlive := drawAll_ub d pick us _ _ ⟨t, r, hm, he _ ht⟩
    simp [List.replicate, run, step, hs, this, Res.bind]
  | cons i pre ih =>
    have hlt : u < s.rest.length := (List.getElem?_eq_some_iff.mp hs).1
    simp only [List.length_cons]
    rw [List.replicate_succ]
    cases i with
    | engine =>
      have e1 : step d pick seed u s = .ok ⟨s.rest.set u (pre ++ .user us :: post), fun k => if k = u then some (seed u) else s.engines k, s.log⟩ := by
        simp [step, hs]
      simp only [run, e1, Res.bind]
      refine ih _ (by simp [List.getElem?_set_self hlt]) (fun k hk => by simp [hk, he k hk]) (fun vs hv => hpre vs (List.mem_cons_of_mem _ hv)) (.inl (by simp))
    | user vs =>
      have hu : (s.engines u).isSome = true := by
        rcases hu with hu | ⟨pre', e⟩
        · exact hu
        · cases e
      obtain ⟨es', log', e1, e2⟩ := drawAll_ok d pick vs s.engines s.log fun t r hm => by
        rw [hpre vs (by simp) t r hm]; exact hu
      have e3 : step d pick seed u s = .ok ⟨s.rest.set u (pre ++ .user us :: post), es', log'⟩ := by
        simp [step, hs, e1, Res.bind]
      simp only [run, e3, Res.bind]
      refine ih _ (by simp [List.getElem?_set_self hlt]) (fun k hk => ?_) (fun vs hv => hpre vs (List.mem_cons_of_mem _ hv)) (.inl (by show (es' u).isSome = true; rw [e2]; exact hu))
      have h2 := e2 k
      rw [he k hk] at h2
      exact Option.isNone_iff_eq_none.mp (by simp only [Option.isNone_iff_eq_none]; simpa using h2)

/-- The first use of the generator of another unit. -/
theorem first_bad (pick : Nat → Nat) (u : Nat) (users : List (List (Nat × Randomiser V)))
    (h : ∃ us ∈ users, ∃ t r, (t, r) ∈ us ∧ pick t ≠ u) :
    ∃ pre us post, users = pre ++ us :: post ∧ (∃ t r, (t, r) ∈ us ∧ pick t ≠ u) ∧ ∀ vs ∈ pre, ∀ t r, (t, r) ∈ vs → pick t = u := by
  induction users with
  | nil => obtain ⟨us, hm, _⟩ := h; cases hm
  | cons a users ih =>
    by_cases ha : ∃ t r, (t, r) ∈ a ∧ pick t ≠ u
    · exact ⟨[], a, users, rfl, ha, by simp⟩
    · have ha' : ∀ t r, (t, r) ∈ a → pick t = u := fun t r hm => Classical.byContradiction fun hn => ha ⟨t, r, hm, hn⟩
      obtain ⟨us, hm, hb⟩ := h
      rcases List.mem_cons.mp hm with rfl | hm
      · exact absurd hb ha
      · obtain ⟨pre, us, post, e, hb, hp⟩ := ih ⟨us, hm, hb⟩
        refine ⟨a :: pre, us, post, by rw [e]; rfl, hb, fun vs hv => ?_⟩
        rcases List.mem_cons.mp hv with rfl | hv
        · exact ha'
        · exact hp vs hv

/-! ## C128 -/

/-- C128: whatever the order in which the units are initialised, no generator is used before it is initialised, exactly if every initialiser
uses randomisers of types for which the linker kept the version of its own unit. -/
theorem C128_order_partial (d : Dist V E) (pick : Nat → Nat) (seed : Nat → E) (units : List (List (List (Nat × Randomiser V)))) :
    (∀ sched, ∃ s', run d pick seed sched (start (units.map including)) = .ok s') ↔
    ∀ (u : Nat) users, units[u]? = some users → ∀ us ∈ users, ∀ t r, (t, r) ∈ us → pick t = u := by
  constructor
  · intro h u users hu
    apply Classical.byContradiction
    intro hn
    have hb : ∃ us ∈ users, ∃ t r, (t, r) ∈ us ∧ pick t ≠ u := by
      apply Classical.byContradiction
      intro hno
      exact hn fun us hus t r hm => Classical.byContradiction fun hp => hno ⟨us, hus, t, r, hm, hp⟩
    obtain ⟨pre, us, post, e, hbad, hp⟩ := first_bad pick u users hb
    have hrun := run_alone d pick seed u (.engine :: pre.map .user) (post.map .user) us hbad (start (units.map including))
      (by simp [start, hu, e, including]) (fun _ _ => rfl)
      (fun vs hv t r hm => by
        simp only [List.mem_cons, reduceCtorEq, List.mem_map, Init.user.injEq, false_or] at hv
        obtain ⟨ws, hws, rfl⟩ := hv
        exact hp _ hws t r hm) (.inr ⟨_, rfl⟩)
    obtain ⟨s', hs'⟩ := h (List.replicate ((Init.engine :: pre.map Init.user).length + 1) u)
    rw [hrun] at hs'
    cases hs'
  · intro h sched
    have hg : Good pick (start (V := V) (E := E) (units.map including)) := by
      intro u is hs
      simp only [start, List.getElem?_map, Option.map_eq_some_iff] at hs
      obtain ⟨users, hu, rfl⟩ := hs
      refine ⟨fun us hus t r hm => ?_, .inr fun us _ => .inr ⟨_, rfl⟩⟩
      simp only [including, List.mem_cons, reduceCtorEq, List.mem_map, Init.user.injEq, false_or] at hus
      obtain ⟨ws, hws, rfl⟩ := hus
      exact h u users hu _ hws t r hm
    obtain ⟨s', e, _⟩ := good_run d pick seed sched _ hg
    exact ⟨s', e⟩

/-- C128: with one unit that includes the header, the initialisers draw one value after another from its engine. -/
theorem C128_one (d : Dist V E) (seed : Nat → E) (users : List (List (Nat × Randomiser V))) :
    ∃ s', run d (fun _ => 0) seed (List.replicate (users.length + 1) 0) (start [including users]) = .ok s' ∧
      s'.rest = [[]] ∧ s'.log = (draws d (fun _ => 0) users.flatten seed).1 := by
  have all : ∀ (us : List (Nat × Randomiser V)) (es : Nat → Option E) (fs : Nat → E) (log : List V), es 0 = some (fs 0) →
      ∃ es', drawAll d (fun _ => 0) us es log = .ok (es', log ++ (draws d (fun _ => 0) us fs).1) ∧
        es' 0 = some ((draws d (fun _ => 0) us fs).2 0) := by
    intro us
    induction us with
    | nil => intro es fs log h; exact ⟨es, by simp [drawAll, draws], h⟩
    | cons a us ih =>
      intro es fs log h
      obtain ⟨t, r⟩ := a
      obtain ⟨es', e1, e2⟩ := ih (fun k => if k = 0 then some (get d r (fs 0)).2 else es k)
        (fun k => if k = 0 then (get d r (fs 0)).2 else fs k) (log ++ [(get d r (fs 0)).1]) (by simp)
      refine ⟨es', ?_, ?_⟩
      · simp only [drawAll, draw, h, Res.bind, e1, draws]
        simp
      · simp only [draws]; exact e2
  have app : ∀ (us vs : List (Nat × Randomiser V)) (fs : Nat → E), draws d (fun _ => 0) (us ++ vs) fs =
      ((draws d (fun _ => 0) us fs).1 ++ (draws d (fun _ => 0) vs (draws d (fun _ => 0) us fs).2).1,
        (draws d (fun _ => 0) vs (draws d (fun _ => 0) us fs).2).2) := by
    intro us
    induction us with
    | nil => intro vs fs; simp [draws]
    | cons a us ih => intro vs fs; obtain ⟨t, r⟩ := a; simp [draws, ih]
  have rest : ∀ (users : List (List (Nat × Randomiser V))) (es : Nat → Option E) (fs : Nat → E) (log : List V), es 0 = some (fs 0) →
      ∃ s', run d (fun _ => 0) seed (List.replicate users.length 0) ⟨[users.map .user], es, log⟩ = .ok s' ∧
        s'.rest = [[]] ∧ s'.log = log ++ (draws d (fun _ => 0) users.flatten fs).1 := by
    intro users
    induction users with
    | nil => intro es fs log h; exact ⟨_, rfl, rfl, by simp [draws]⟩
    | cons us users ih =>
      intro es fs log h
      obtain ⟨es', e1, e2⟩ := all us es fs log h
      obtain ⟨s', h1, h2, h3⟩ := ih es' (draws d (fun _ => 0) us fs).2 _ e2
      refine ⟨s', ?_, h2, ?_⟩
      · simp only [List.length_cons, List.replicate_succ, run]
        have : step d (fun _ => 0) seed 0 ⟨[(us :: users).map .user], es, log⟩ = .ok ⟨[users.map .user], es', log ++ (draws d (fun _ => 0) us fs).1⟩ := by
          simp [step, e1, Res.bind]
        rw [this]
        exact h1
      · rw [h3, List.flatten_cons, app]
        simp
  obtain ⟨s', h1, h2, h3⟩ := rest users (fun k => if k = 0 then some (seed 0) else none) seed [] (by simp)
  refine ⟨s', ?_, h2, by simpa using h3⟩
  rw [List.replicate_succ]
  simp only [run, step, start, including, List.getElem?_cons_zero, Res.bind, List.set_cons_zero]
  exact h1

/-- Every unit has its engine, or has still to initialise it. -/
def Coming (n : Nat) (s : St V E) : Prop :=
  ∀ u, u < n → (s.engines u).isSome = true ∨ ∃ is, s.rest[u]? = some (.engine :: is)

theorem drawAll_engines (d : Dist V E) (pick : Nat → Nat) (us : List (Nat × Randomiser V)) (es es' : Nat → Option E) (log log' : List V)
    (h : drawAll d pick us es log = .ok (es', log')) : ∀ k, (es' k).isSome = (es k).isSome := by
  by_cases hb : ∃ t r, (t, r) ∈ us ∧ es (pick t) = none
  · rw [drawAll_ub d pick us es log hb] at h; cases h
  · obtain ⟨es1, log1, h1, h2⟩ := drawAll_ok d pick us es log fun t r hm => by
      cases he : es (pick t) with
      | none => exact absurd ⟨t, r, hm, he⟩ hb
      | some _ => rfl
    rw [h1] at h
    simp only [Res.ok.injEq, Prod.mk.injEq] at h
    rw [← h.1]
    exact h2

theorem coming_step (d : Dist V E) (pick : Nat → Nat) (seed : Nat → E) (u n : Nat) (s s' : St V E) (hc : Coming n s)
    (h : step d pick seed u s = .ok s') : Coming n s' := by
  unfold step at h
  split at h
  · cases h
    intro v hv
    by_cases e : v = u
    · exact .inl (by simp [e])
    · have e' : ¬ u = v := fun h => e h.symm
      rcases hc v hv with h1 | ⟨is, h1⟩
      · exact .inl (by simp [e, h1])
      · exact .inr ⟨is, by simp [List.getElem?_set_ne e', h1]⟩
  · rename_i us is hs
    cases hd : drawAll d pick us s.engines s.log with
    | ok r =>
      obtain ⟨es, log⟩ := r
      rw [hd] at h
      cases h
      have h2 := drawAll_engines d pick us _ _ _ _ hd
      intro v hv
      rcases hc v hv with h1 | ⟨js, h1⟩
      · exact .inl (by show (es v).isSome = true; rw [h2]; exact h1)
      · by_cases e : u = v
        · subst e; rw [hs] at h1; cases h1
        · exact .inr ⟨js, by simp [List.getElem?_set_ne e, h1]⟩
    | _ => rw [hd] at h; cases h
  · cases h; exact hc

theorem coming_run (d : Dist V E) (pick : Nat → Nat) (seed : Nat → E) (n : Nat) (sched : List Nat) (s s' : St V E) (hc : Coming n s)
    (h : run d pick seed sched s = .ok s') : Coming n s' := by
  induction sched generalizing s with
  | nil => cases h; exact hc
  | cons u sched ih =>
    simp only [run] at h
    cases e : step d pick seed u s with
    | ok s1 => rw [e] at h; exact ih s1 (coming_step d pick seed u n s s1 hc e) h
    | _ => rw [e] at h; cases h

/-- C128 is false: with two units that both draw from a randomiser of the same type when they are initialised, one of the two orders of
initialisation uses a generator that is not initialised, whichever version the linker keeps. -/
theorem C128_refuted (d : Dist V E) (pick : Nat → Nat) (seed : Nat → E) (t : Nat) (r : Randomiser V) :
    ∃ sched, sched ∈ [[0, 0, 1, 1], [1, 1, 0, 0]] ∧ run d pick seed sched (start [including [[(t, r)]], including [[(t, r)]]]) = .ub .notAlive := by
  by_cases h : pick t = 0
  · refine ⟨[1, 1, 0, 0], by simp, ?_⟩
    simp [run, step, start, including, Res.bind, drawAll, draw, h]
  · refine ⟨[0, 0, 1, 1], by simp, ?_⟩
    simp [run, step, start, including, Res.bind, drawAll, draw, h]

/-- C128 is false: the same with types that only one of the two units uses, if a third unit uses both. -/
theorem C128_third_refuted (d : Dist V E) (seed : Nat → E) (r : Randomiser V) :
    run d (fun _ => 2) seed [0, 0] (start [including [[(0, r)]], including [[(1, r)]], including [[(0, r), (1, r)]]]) = .ub .notAlive := by
  simp [run, step, start, including, Res.bind, drawAll, draw]

/-- C128: once the units have all been initialised, so in `main`, every randomiser works, whichever version the linker kept. -/
theorem C128_main (d : Dist V E) (pick : Nat → Nat) (seed : Nat → E) (units : List (List (List (Nat × Randomiser V)))) (sched : List Nat)
    (s : St V E) (h : run d pick seed sched (start (units.map including)) = .ok s) (hdone : ∀ is ∈ s.rest, is = [])
    (us : List (Nat × Randomiser V)) (hp : ∀ t r, (t, r) ∈ us → pick t < units.length) :
    ∃ es log, drawAll d pick us s.engines s.log = .ok (es, log) := by
  have hc : Coming units.length (start (V := V) (E := E) (units.map including)) := by
    intro u hu
    exact .inr ⟨(units[u]).map .user, by simp [start, hu, including]⟩
  have hc' := coming_run d pick seed _ sched _ s hc h
  obtain ⟨es, log, e, _⟩ := drawAll_ok d pick us s.engines s.log fun t r hm => by
    rcases hc' _ (hp t r hm) with h1 | ⟨is, h1⟩
    · exact h1
    · have := hdone _ (List.mem_of_getElem? h1); cases this
  exact ⟨es, log, e⟩

/-- C128: each turn of a unit initialises its next variable, and no variable of another unit. -/
theorem C128_progress (d : Dist V E) (pick : Nat → Nat) (seed : Nat → E) (u : Nat) (s s' : St V E) (i : Init V) (is : List (Init V))
    (hs : s.rest[u]? = some (i :: is)) (h : step d pick seed u s = .ok s') :
    s'.rest[u]? = some is ∧ ∀ v, v ≠ u → s'.rest[v]? = s.rest[v]? := by
  have hlt : u < s.rest.length := (List.getElem?_eq_some_iff.mp hs).1
  cases i with
  | engine =>
    simp only [step, hs, Res.ok.injEq] at h
    subst h
    exact ⟨by simp [List.getElem?_set_self hlt], fun v hv => by simp [List.getElem?_set_ne (Ne.symm hv)]⟩
  | user us =>
    simp only [step, hs] at h
    cases hd : drawAll d pick us s.engines s.log with
    | ok r =>
      obtain ⟨es, log⟩ := r
      rw [hd] at h
      cases h
      exact ⟨by simp [List.getElem?_set_self hlt], fun v hv => by simp [List.getElem?_set_ne (Ne.symm hv)]⟩
    | _ => rw [hd] at h; cases h

/-! ## Examples -/

/-- A generator for the examples. -/
def counter : Dist Int Nat := fun a b e => (a + (e : Int) % (b - a + 1), e * 5 + 3)

/-- Two units with types of their own, interleaved. -/
example : (match run counter (fun t => t) (fun u => u + 4) [0, 1, 1, 0, 0] (start [including [[(0, ⟨1, 6⟩)], [(0, ⟨1, 6⟩), (0, ⟨10, 11⟩)]],
    including [[(1, ⟨1, 6⟩)]]]) with | .ok s => s.log | _ => []) = [6, 5, 6, 10] := by decide +kernel

/-- The same units when the linker keeps the version of unit 1 for both types. -/
example : (match run counter (fun _ => 1) (fun u => u + 4) [0, 0] (start [including [[(0, ⟨1, 6⟩)]], including [[(1, ⟨1, 6⟩)]]]) with
    | .ub .notAlive => true | _ => false) = true := by decide +kernel

/-- The other order is fine. -/
example : (match run counter (fun _ => 1) (fun u => u + 4) [1, 1, 0, 0] (start [including [[(0, ⟨1, 6⟩)]], including [[(1, ⟨1, 6⟩)]]]) with
    | .ok s => s.log | _ => []) = [6, 5] := by decide +kernel

/-- The values of one unit. -/
example : (match run counter (fun _ => 0) (fun _ => 4) [0, 0, 0] (start [including [[(0, ⟨1, 6⟩), (0, ⟨10, 11⟩)], [(0, ⟨1, 6⟩)]]]) with
    | .ok s => s.log | _ => []) = [5, 11, 5] := by decide +kernel

/-- In `main`. -/
example : (match run counter (fun _ => 1) (fun u => u + 4) [0, 1] (start [including [], including []]) with
    | .ok s => (match drawAll counter (fun _ => 1) [(0, ⟨1, 6⟩)] s.engines s.log with | .ok (_, l) => l | _ => []) | _ => []) = [6] := by decide +kernel

end Helper.Randomiser.Statics
