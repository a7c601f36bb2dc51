import Verif.Basic
/-!
# Threads evaluating one Lazy (lazy.hpp:47), property C50

Each thread evaluates the same Lazy once. `operator()` is split into its accesses of `_obj`: the test, the
`reset` and the dereference, with the call of the factory in between; a schedule is the list of the
threads that take a step. The factory always makes a new object, numbered by the calls. Every access is
recorded. The code has no synchronisation, so an access of one thread and a `reset` of another form a data
race, which is undefined in C++; the model also shows what happens if the accesses are taken one by one.
-/
namespace Helper.Lazy.Threads

inductive PC where
  /-- before `_obj == nullptr` -/ | test
  /-- before `_func()` -/ | call
  /-- before `_obj.reset(k)` -/ | reset (k : Nat)
  /-- before `*_obj` -/ | deref
  /-- returned a reference to object `k` -/ | done (k : Nat)
deriving DecidableEq, Repr

structure St where
  obj : Option Nat
  calls : Nat
  deleted : List Nat
  pc : List PC
  /-- accesses of `_obj`: thread, and whether it was written -/
  log : List (Nat × Bool)
deriving DecidableEq, Repr

/-- One step of thread `i`. -/
def step (i : Nat) (s : St) : St :=
  match s.pc[i]? with
  | none => s
  | some .test =>
    { s with pc := s.pc.set i (if s.obj = none then .call else .deref), log := s.log ++ [(i, false)] }
  | some .call => { s with calls := s.calls + 1, pc := s.pc.set i (.reset s.calls) }
  | some (.reset k) =>
    { s with obj := some k, deleted := s.deleted ++ s.obj.toList, pc := s.pc.set i .deref, log := s.log ++ [(i, true)] }
  | some .deref =>
    match s.obj with
    | none => s
    | some k => { s with pc := s.pc.set i (.done k), log := s.log ++ [(i, false)] }
  | some (.done _) => s

def run (sched : List Nat) (s : St) : St := sched.foldl (fun s i => step i s) s

/-- `n` threads about to evaluate a Lazy that holds `o`. -/
def init (n : Nat) (o : Option Nat) : St :=
  { obj := o, calls := 0, deleted := [], pc := List.replicate n .test, log := [] }

/-- Two threads accessed `_obj`, one of them writing. -/
def Race (s : St) : Prop := ∃ i j b, i ≠ j ∧ (i, true) ∈ s.log ∧ (j, b) ∈ s.log

/-! ## Single steps -/

theorem step_test {i : Nat} {s : St} (h : s.pc[i]? = some .test) :
    step i s = ⟨s.obj, s.calls, s.deleted, s.pc.set i (if s.obj = none then .call else .deref), s.log ++ [(i, false)]⟩ := by
  simp only [step, h]

theorem step_call {i : Nat} {s : St} (h : s.pc[i]? = some .call) :
    step i s = ⟨s.obj, s.calls + 1, s.deleted, s.pc.set i (.reset s.calls), s.log⟩ := by
  simp only [step, h]

theorem step_reset {i k : Nat} {s : St} (h : s.pc[i]? = some (.reset k)) :
    step i s = ⟨some k, s.calls, s.deleted ++ s.obj.toList, s.pc.set i .deref, s.log ++ [(i, true)]⟩ := by
  simp only [step, h]

theorem step_deref {i k : Nat} {s : St} (h : s.pc[i]? = some .deref) (ho : s.obj = some k) :
    step i s = ⟨some k, s.calls, s.deleted, s.pc.set i (.done k), s.log ++ [(i, false)]⟩ := by
  simp only [step, h, ho]

theorem step_done {i k : Nat} {s : St} (h : s.pc[i]? = some (.done k)) : step i s = s := by
  simp only [step, h]

theorem getElem?_set_same {l : List PC} {i : Nat} (p : PC) (h : i < l.length) : (l.set i p)[i]? = some p :=
  List.getElem?_set_self h

theorem set_twice (l : List PC) (i : Nat) (p q : PC) : (l.set i p).set i q = l.set i q := by
  simp

/-! ## C50 -/

theorem run_append (a b : List Nat) (s : St) : run (a ++ b) s = run b (run a s) := by
  simp [run, List.foldl_append]

theorem run_cons (i : Nat) (b : List Nat) (s : St) : run (i :: b) s = run b (step i s) := rfl

theorem run_preserves {P : St → Prop} (h : ∀ s i, P s → P (step i s)) : ∀ (sched : List Nat) (s : St), P s → P (run sched s) := by
  intro sched
  induction sched with
  | nil => intro s hs; exact hs
  | cons i r ih => intro s hs; exact ih _ (h s i hs)

/-- C50: if the Lazy was evaluated before the threads started, every schedule is fine: no calls, no
writes (hence no race), nothing deleted, and each thread that returns gets the object. -/
theorem C50_evaluated_partial (n k : Nat) (sched : List Nat) :
    let s := run sched (init n (some k))
    s.calls = 0 ∧ s.deleted = [] ∧ s.obj = some k ∧ ¬ Race s ∧ ∀ (i l : Nat), s.pc[i]? = some (PC.done l) → l = k := by
  intro s
  have : (s.calls = 0 ∧ s.deleted = [] ∧ s.obj = some k) ∧ (∀ i b, (i, b) ∈ s.log → b = false) ∧
      ∀ (i : Nat) (p : PC), s.pc[i]? = some p → p = .test ∨ p = .deref ∨ p = .done k := by
    refine run_preserves (P := fun s => (s.calls = 0 ∧ s.deleted = [] ∧ s.obj = some k) ∧
      (∀ i b, (i, b) ∈ s.log → b = false) ∧
      ∀ (i : Nat) (p : PC), s.pc[i]? = some p → p = .test ∨ p = .deref ∨ p = .done k) ?_ sched _ ?_
    · rintro s i ⟨⟨h1, h2, h3⟩, h4, h5⟩
      have hset : ∀ q, q = PC.test ∨ q = .deref ∨ q = .done k → ∀ (j : Nat) (p : PC), (s.pc.set i q)[j]? = some p →
          p = .test ∨ p = .deref ∨ p = .done k := by
        intro q hq j p hp
        rw [List.getElem?_set] at hp
        split at hp
        · split at hp
          · cases hp; exact hq
          · cases hp
        · exact h5 j p hp
      unfold step
      cases hp : s.pc[i]? with
      | none => exact ⟨⟨h1, h2, h3⟩, h4, h5⟩
      | some p =>
        rcases h5 i p hp with rfl | rfl | rfl
        · refine ⟨⟨h1, h2, h3⟩, ?_, hset _ (by simp [h3])⟩
          intro j b hb
          simp only [List.mem_append, List.mem_singleton, Prod.mk.injEq] at hb
          rcases hb with hb | ⟨_, hb⟩
          · exact h4 j b hb
          · exact hb
        · simp only [h3]
          refine ⟨⟨h1, h2, by simp⟩, ?_, hset _ (by simp)⟩
          intro j b hb
          simp only [List.mem_append, List.mem_singleton, Prod.mk.injEq] at hb
          rcases hb with hb | ⟨_, hb⟩
          · exact h4 j b hb
          · exact hb
        · exact ⟨⟨h1, h2, h3⟩, h4, h5⟩
    · refine ⟨⟨rfl, rfl, rfl⟩, by simp [init], ?_⟩
      intro i p hp
      simp only [init, List.getElem?_replicate] at hp
      split at hp
      · cases hp; exact .inl rfl
      · cases hp
  obtain ⟨⟨h1, h2, h3⟩, h4, h5⟩ := this
  refine ⟨h1, h2, h3, ?_, ?_⟩
  · rintro ⟨i, j, b, _, hi, _⟩
    exact absurd (h4 i true hi) (by simp)
  · intro i l hl
    rcases h5 i _ hl with h | h | h <;> cases h
    rfl

/-- The four steps of one evaluation. -/
def block (i : Nat) : List Nat := [i, i, i, i]

theorem block_holding {i k : Nat} {s : St} (ho : s.obj = some k) (hp : s.pc[i]? = some .test) :
    let s' := run (block i) s
    s'.obj = some k ∧ s'.calls = s.calls ∧ s'.deleted = s.deleted ∧ s'.pc = s.pc.set i (.done k) := by
  have hlt : i < s.pc.length := (List.getElem?_eq_some_iff.1 hp).1
  obtain ⟨obj, calls, deleted, pc, log⟩ := s
  simp only at ho hp hlt; subst ho
  rw [block, run_cons, step_test (s := ⟨some k, calls, deleted, pc, log⟩) hp, run_cons, if_neg (by simp),
    step_deref (k := k) (s := ⟨some k, calls, deleted, pc.set i .deref, _⟩) (getElem?_set_same _ hlt) rfl, set_twice, run_cons,
    step_done (k := k) (s := ⟨some k, calls, deleted, pc.set i (.done k), _⟩) (getElem?_set_same _ hlt), run_cons,
    step_done (k := k) (s := ⟨some k, calls, deleted, pc.set i (.done k), _⟩) (getElem?_set_same _ hlt)]
  exact ⟨rfl, rfl, rfl, rfl⟩

theorem block_first {i : Nat} {s : St} (ho : s.obj = none) (hp : s.pc[i]? = some .test) :
    let s' := run (block i) s
    s'.obj = some s.calls ∧ s'.calls = s.calls + 1 ∧ s'.deleted = s.deleted ∧ s'.pc = s.pc.set i (.done s.calls) := by
  have hlt : i < s.pc.length := (List.getElem?_eq_some_iff.1 hp).1
  obtain ⟨obj, calls, deleted, pc, log⟩ := s
  simp only at ho hp hlt; subst ho
  rw [block, run_cons, step_test (s := ⟨none, calls, deleted, pc, log⟩) hp, run_cons, if_pos rfl,
    step_call (s := ⟨none, calls, deleted, pc.set i .call, _⟩) (getElem?_set_same _ hlt), set_twice, run_cons,
    step_reset (k := calls) (s := ⟨none, calls + 1, deleted, pc.set i (.reset calls), _⟩) (getElem?_set_same _ hlt), set_twice, run_cons,
    step_deref (k := calls) (s := ⟨some calls, calls + 1, _, pc.set i .deref, _⟩) (getElem?_set_same _ hlt) rfl, set_twice]
  exact ⟨rfl, rfl, by simp [run], rfl⟩

/-- C50: if the evaluations of the threads are serialised from outside (by a lock), in any order, the
factory is called once and all get the same object, which is not deleted. -/
theorem C50_serial_partial (n : Nat) (order : List Nat) (hn : order.Nodup) (hlt : ∀ i ∈ order, i < n) (h0 : order ≠ []) :
    let s := run (order.flatMap block) (init n none)
    s.calls = 1 ∧ s.deleted = [] ∧ s.obj = some 0 ∧ ∀ i ∈ order, s.pc[i]? = some (.done 0) := by
  intro s
  have key : ∀ (order : List Nat) (s : St), s.obj = some 0 → s.calls = 1 → s.deleted = [] → order.Nodup →
      (∀ i ∈ order, s.pc[i]? = some .test) →
      let s' := run (order.flatMap block) s
      s'.calls = 1 ∧ s'.deleted = [] ∧ s'.obj = some 0 ∧ (∀ i ∈ order, s'.pc[i]? = some (.done 0)) ∧
      ∀ i, i ∉ order → s'.pc[i]? = s.pc[i]? := by
    intro order
    induction order with
    | nil => intro s h1 h2 h3 _ _; exact ⟨h2, h3, h1, by simp, fun i _ => rfl⟩
    | cons a r ih =>
      intro s h1 h2 h3 hn ht
      rw [List.nodup_cons] at hn
      have hb := block_holding h1 (ht a List.mem_cons_self)
      have hne : ∀ i ∈ r, i ≠ a := fun i hi e => hn.1 (e ▸ hi)
      have hlt : a < s.pc.length := (List.getElem?_eq_some_iff.1 (ht a List.mem_cons_self)).1
      have := ih (run (block a) s) hb.1 (hb.2.1.trans h2) (hb.2.2.1.trans h3) hn.2 (fun i hi => by
        rw [hb.2.2.2, List.getElem?_set_ne (fun e => hne i hi e.symm)]
        exact ht i (List.mem_cons_of_mem _ hi))
      simp only [List.flatMap_cons, run_append]
      refine ⟨this.1, this.2.1, this.2.2.1, ?_, ?_⟩
      · intro i hi
        rcases List.mem_cons.1 hi with rfl | hi
        · rw [this.2.2.2.2 i hn.1, hb.2.2.2]; simp [hlt]
        · exact this.2.2.2.1 i hi
      · intro i hi
        simp only [List.mem_cons, not_or] at hi
        rw [this.2.2.2.2 i hi.2, hb.2.2.2, List.getElem?_set_ne (fun e => hi.1 e.symm)]
  cases order with
  | nil => exact absurd rfl h0
  | cons a r =>
    rw [List.nodup_cons] at hn
    have hpa : (init n none).pc[a]? = some .test := by
      simp [init, hlt a List.mem_cons_self]
    have hb := block_first (s := init n none) rfl hpa
    have hne : ∀ i ∈ r, i ≠ a := fun i hi e => hn.1 (e ▸ hi)
    have := key r (run (block a) (init n none)) hb.1 hb.2.1 hb.2.2.1 hn.2 (fun i hi => by
      rw [hb.2.2.2, List.getElem?_set_ne (fun e => hne i hi e.symm)]
      simp [init, hlt i (List.mem_cons_of_mem _ hi)])
    have hs : s = run (r.flatMap block) (run (block a) (init n none)) := by
      show run _ _ = _
      simp only [List.flatMap_cons, run_append]
    rw [hs]
    refine ⟨this.1, this.2.1, this.2.2.1, ?_⟩
    intro i hi
    rcases List.mem_cons.1 hi with rfl | hi
    · rw [this.2.2.2.2 i hn.1, hb.2.2.2]
      simp [init, hlt i List.mem_cons_self]
    · exact this.2.2.2.1 i hi

/-- C50 is false: whenever two threads have returned from evaluating a Lazy that was not evaluated
before, there was a data race, whatever the schedule. -/
theorem C50_race_refuted (n : Nat) (sched : List Nat) (i j : Nat) (hij : i ≠ j) (k l : Nat)
    (hi : (run sched (init n none)).pc[i]? = some (.done k)) (hj : (run sched (init n none)).pc[j]? = some (.done l)) :
    Race (run sched (init n none)) := by
  have inv : (∀ (i : Nat) (k : Nat), (run sched (init n none)).pc[i]? = some (.done k) →
        ∃ b, (i, b) ∈ (run sched (init n none)).log) ∧
      ((run sched (init n none)).obj ≠ none → ∃ i, (i, true) ∈ (run sched (init n none)).log) ∧
      ((run sched (init n none)).obj = none → ∀ (i : Nat) (k : Nat), (run sched (init n none)).pc[i]? ≠ some (.done k)) := by
    refine run_preserves (P := fun s => (∀ (i : Nat) (k : Nat), s.pc[i]? = some (.done k) → ∃ b, (i, b) ∈ s.log) ∧
      (s.obj ≠ none → ∃ i, (i, true) ∈ s.log) ∧
      (s.obj = none → ∀ (i : Nat) (k : Nat), s.pc[i]? ≠ some (.done k))) ?_ sched _ ?_
    · rintro s i ⟨h1, h2, h3⟩
      have hset : ∀ (q : PC), (∀ k, q ≠ .done k) → ∀ (j k : Nat), (s.pc.set i q)[j]? = some (.done k) →
          s.pc[j]? = some (.done k) := by
        intro q hq j k hp
        rw [List.getElem?_set] at hp
        split at hp
        · split at hp
          · cases hp; exact absurd rfl (hq k)
          · cases hp
        · exact hp
      unfold step
      cases hp : s.pc[i]? with
      | none => exact ⟨h1, h2, h3⟩
      | some p =>
        cases p with
        | test =>
          have hq : ∀ k, (if s.obj = none then PC.call else .deref) ≠ .done k := by intro k; split <;> simp
          refine ⟨fun j k hj => ?_, fun ho => ?_, fun ho j k hj => ?_⟩
          · obtain ⟨b, hb⟩ := h1 j k (hset _ hq j k hj)
            exact ⟨b, List.mem_append_left _ hb⟩
          · obtain ⟨a, ha⟩ := h2 ho
            exact ⟨a, List.mem_append_left _ ha⟩
          · exact h3 ho j k (hset _ hq j k hj)
        | call =>
          refine ⟨fun j k hj => h1 j k (hset _ (by simp) j k hj), h2, fun ho j k hj => h3 ho j k (hset _ (by simp) j k hj)⟩
        | reset m =>
          refine ⟨fun j k hj => ?_, fun ho => ⟨i, by simp⟩, fun ho => by simp at ho⟩
          obtain ⟨b, hb⟩ := h1 j k (hset _ (by simp) j k hj)
          exact ⟨b, List.mem_append_left _ hb⟩
        | deref =>
          cases hobj : s.obj with
          | none => simp only; exact ⟨h1, h2, h3⟩
          | some m =>
            simp only
            refine ⟨fun j k hj => ?_, fun ho => ?_, fun ho => by simp at ho⟩
            · rw [List.getElem?_set] at hj
              split at hj
              · rename_i e; subst e
                exact ⟨false, by simp⟩
              · obtain ⟨b, hb⟩ := h1 j k hj
                exact ⟨b, List.mem_append_left _ hb⟩
            · obtain ⟨a, ha⟩ := h2 (by simp [hobj])
              exact ⟨a, List.mem_append_left _ ha⟩
        | done k => exact ⟨h1, h2, h3⟩
    · refine ⟨?_, by simp [init], ?_⟩
      · intro i k hp
        simp only [init, List.getElem?_replicate] at hp
        split at hp <;> cases hp
      · intro _ i k hp
        simp only [init, List.getElem?_replicate] at hp
        split at hp <;> cases hp
  obtain ⟨h1, h2, h3⟩ := inv
  generalize run sched (init n none) = s at *
  have ho : s.obj ≠ none := fun ho => h3 ho i k hi
  obtain ⟨a, ha⟩ := h2 ho
  obtain ⟨b, hb⟩ := h1 i k hi
  obtain ⟨c, hc⟩ := h1 j l hj
  by_cases e : a = i
  · exact ⟨a, j, c, by rw [e]; exact hij, ha, hc⟩
  · exact ⟨a, i, b, e, ha, hb⟩

theorem tests : ∀ (m n : Nat) (s : St), m + n = s.pc.length → s.obj = none → (∀ i, m ≤ i → i < s.pc.length → s.pc[i]? = some .test) →
    let s' := run (List.range' m n) s
    s'.obj = none ∧ s'.calls = s.calls ∧ s'.deleted = s.deleted ∧ s'.pc = s.pc.take m ++ List.replicate n .call := by
  intro m n
  induction n generalizing m with
  | zero =>
    intro s hl ho _
    refine ⟨ho, rfl, rfl, ?_⟩
    simp only [Nat.add_zero] at hl
    simp [run, hl]
  | succ n ih =>
    intro s hl ho ht
    have hp := ht m (Nat.le_refl _) (by omega)
    have h1 : step m s = { s with pc := s.pc.set m .call, log := s.log ++ [(m, false)] } := by
      simp [step, hp, ho]
    rw [List.range'_succ, run_cons, h1]
    have := ih (m + 1) { s with pc := s.pc.set m .call, log := s.log ++ [(m, false)] } (by simp; omega) ho (fun i hi hi' => by
      simp only
      rw [List.getElem?_set_ne (by omega)]
      exact ht i (by omega) (by simpa using hi'))
    simp only at this
    refine ⟨this.1, this.2.1, this.2.2.1, ?_⟩
    rw [this.2.2.2, List.take_add_one, List.replicate_succ]
    have e1 : (s.pc.set m PC.call).take m = s.pc.take m := by
      rw [List.take_set_of_le (Nat.le_refl _)]
    rw [e1]
    have e2 : (s.pc.set m PC.call)[m]? = some .call := by
      rw [List.getElem?_set_self (by omega)]
    rw [e2]
    simp

theorem makes : ∀ (m n : Nat) (s : St), m + n = s.pc.length → (∀ i, m ≤ i → i < s.pc.length → s.pc[i]? = some .call) →
    (m ≠ 0 → s.obj ≠ none) →
    let s' := run ((List.range' m n).flatMap fun i => [i, i, i]) s
    s'.calls = s.calls + n ∧ (∀ i, i < m → s'.pc[i]? = s.pc[i]?) ∧
    (∀ j, j < n → s'.pc[m + j]? = some (.done (s.calls + j))) ∧
    s'.obj = (if n = 0 then s.obj else some (s.calls + n - 1)) ∧
    s'.deleted = s.deleted ++ (if n = 0 then [] else s.obj.toList ++ List.range' s.calls (n - 1)) := by
  intro m n
  induction n generalizing m with
  | zero => intro s _ _ _; exact ⟨rfl, fun i _ => rfl, fun j hj => absurd hj (Nat.not_lt_zero _), rfl, by simp [run]⟩
  | succ n ih =>
    intro s hl hc hm
    have hp := hc m (Nat.le_refl _) (by omega)
    have hlt : m < s.pc.length := by omega
    have h1 : run [m, m, m] s = ⟨some s.calls, s.calls + 1, s.deleted ++ s.obj.toList, s.pc.set m (.done s.calls), s.log ++ [(m, true)] ++ [(m, false)]⟩ := by
      obtain ⟨obj, calls, deleted, pc, log⟩ := s
      simp only at hp hlt
      rw [run_cons, step_call (s := ⟨obj, calls, deleted, pc, log⟩) hp, run_cons,
        step_reset (k := calls) (s := ⟨obj, calls + 1, deleted, pc.set m (.reset calls), _⟩) (getElem?_set_same _ hlt), set_twice, run_cons,
        step_deref (k := calls) (s := ⟨some calls, calls + 1, _, pc.set m .deref, _⟩) (getElem?_set_same _ hlt) rfl, set_twice]
      rfl
    rw [List.range'_succ, List.flatMap_cons, run_append, h1]
    have := ih (m + 1) ⟨some s.calls, s.calls + 1, s.deleted ++ s.obj.toList, s.pc.set m (.done s.calls), s.log ++ [(m, true)] ++ [(m, false)]⟩ (by simp; omega) (fun i hi hi' => by
      simp only
      rw [List.getElem?_set_ne (by omega)]
      exact hc i (by omega) (by simpa using hi')) (by simp)
    obtain ⟨g1, g2, g3, g4, g5⟩ := this
    refine ⟨by rw [g1]; simp only; omega, ?_, ?_, ?_, ?_⟩
    · intro i hi
      rw [g2 i (by omega)]
      simp only
      rw [List.getElem?_set_ne (by omega)]
    · intro j hj
      cases j with
      | zero =>
        show _ = some (PC.done s.calls)
        rw [show m + 0 = m from rfl, g2 m (by omega)]
        rw [List.getElem?_set_self hlt]
      | succ j =>
        have := g3 j (by omega)
        rw [show m + (j + 1) = m + 1 + j from by omega, this]
        simp only
        congr 2; omega
    · rw [g4]
      by_cases h0 : n = 0
      · subst h0; simp
      · rw [if_neg h0, if_neg (by omega)]; simp only; congr 1; omega
    · rw [g5]
      by_cases h0 : n = 0
      · subst h0; simp
      · rw [if_neg h0, if_neg (by omega)]
        simp only [Option.toList_some, List.append_assoc]
        obtain ⟨n', rfl⟩ : ∃ n', n = n' + 1 := ⟨n - 1, by omega⟩
        simp [List.range'_succ]

/-- C50 is false for every number of threads from two on, also if the accesses are taken one by one: in
some schedule each thread calls the factory, each returns a different object, and all but the last of these
are deleted while the threads hold references to them. -/
theorem C50_refuted (n : Nat) (hn : 2 ≤ n) : ∃ sched,
    let s := run sched (init n none)
    s.calls = n ∧ (∀ i, i < n → s.pc[i]? = some (.done i)) ∧ s.deleted = List.range (n - 1) := by
  refine ⟨List.range' 0 n ++ (List.range' 0 n).flatMap fun i => [i, i, i], ?_⟩
  rw [run_append]
  have h1 := tests 0 n (init n none) (by simp [init]) rfl (fun i _ hi => by
    simp only [init, List.length_replicate] at hi
    simp [init, hi])
  generalize run (List.range' 0 n) (init n none) = s1 at h1
  obtain ⟨g1, g2, g3, g4⟩ := h1
  simp only [List.take_zero, List.nil_append] at g4
  have h2 := makes 0 n s1 (by rw [g4]; simp) (fun i _ hi => by
    rw [g4, List.length_replicate] at hi
    rw [g4]; simp [hi]) (by simp)
  obtain ⟨k1, _, k3, _, k5⟩ := h2
  refine ⟨by rw [k1, g2]; simp [init], ?_, ?_⟩
  · intro i hi
    have := k3 i hi
    rw [g2] at this
    simpa [init] using this
  · rw [k5, g3, g1, g2, if_neg (by omega)]
    simp [init, List.range_eq_range']

example : let s := run [0, 1, 0, 0, 0, 1, 1, 1] (init 2 none)
    s.calls = 2 ∧ s.pc = [.done 0, .done 1] ∧ s.deleted = [0] := by decide

example : let s := run (block 1 ++ block 0) (init 2 none)
    s.calls = 1 ∧ s.pc = [.done 0, .done 0] ∧ s.deleted = [] := by decide

end Helper.Lazy.Threads
