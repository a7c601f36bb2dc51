import Verif.Randomiser.Model
/-!
# Randomisers in threads (randomiser.hpp:59-72), property C104

Each thread calls `get()` of randomisers of its own, one after the other. All calls use the engine of `RANDOM_GENERATOR`, which is not protected. A
call has two steps: the engine is read, and its new state is written; the many words of the state of `mt19937` are read and
written together here, which leaves out further mixtures. A schedule is the list of the threads that take a step.
-/
set_option linter.unusedSectionVars false
namespace Helper.Randomiser.Threads

variable {V E : Type}

structure Thread (V E : Type) where
  /-- the calls to be made -/
  calls : List (Randomiser V)
  /-- the value and the new state, if the engine has been read in the present call -/
  held : Option (V × E)

structure St (V E : Type) where
  engine : E
  ts : List (Thread V E)
  /-- the results of the calls in the order in which they end, with the thread -/
  log : List (Nat × V)

/-- One step of thread `i`. -/
def step (d : Dist V E) (i : Nat) (s : St V E) : St V E :=
  match s.ts[i]? with
  | none => s
  | some t =>
    match t.held with
    | some (v, e) => ⟨e, s.ts.set i ⟨t.calls.tail, none⟩, s.log ++ [(i, v)]⟩
    | none =>
      match t.calls with
      | [] => s
      | r :: _ => { s with ts := s.ts.set i { t with held := some (get d r s.engine) } }

def run (d : Dist V E) (sched : List Nat) (s : St V E) : St V E := sched.foldl (fun s i => step d i s) s

def start (e : E) (calls : List (List (Randomiser V))) : St V E := ⟨e, calls.map (⟨·, none⟩), []⟩

/-! ## Calls that do not overlap -/

/-- The next call of thread `i`: the thread, its randomiser, and the remaining calls of all threads. -/
def next (calls : List (List (Randomiser V))) (i : Nat) : Option (Randomiser V × List (List (Randomiser V))) :=
  match calls[i]? with
  | some (r :: rs) => some (r, calls.set i rs)
  | _ => none

/-- The calls in the order of the list of threads. -/
def order : List Nat → List (List (Randomiser V)) → List (Nat × Randomiser V)
  | [], _ => []
  | i :: is, calls =>
    match next calls i with
    | none => order is calls
    | some (r, calls') => (i, r) :: order is calls'

theorem run_append (d : Dist V E) (a b : List Nat) (s : St V E) : run d (a ++ b) s = run d b (run d a s) := List.foldl_append

theorem two_steps (d : Dist V E) (i : Nat) (e : E) (calls : List (List (Randomiser V))) (log : List (Nat × V)) :
    run d [i, i] ⟨e, calls.map (⟨·, none⟩), log⟩ =
      match next calls i with
      | none => ⟨e, calls.map (⟨·, none⟩), log⟩
      | some (r, calls') => ⟨(get d r e).2, calls'.map (⟨·, none⟩), log ++ [(i, (get d r e).1)]⟩ := by
  show step d i (step d i _) = _
  unfold next
  cases hc : calls[i]? with
  | none => simp [step, hc]
  | some l =>
    have hi : i < calls.length := (List.getElem?_eq_some_iff.1 hc).1
    cases l with
    | nil => simp [step, hc]
    | cons r rs =>
      have h1 : step d i ⟨e, calls.map (⟨·, none⟩), log⟩ =
          ⟨e, (calls.map (⟨·, none⟩)).set i ⟨r :: rs, some (get d r e)⟩, log⟩ := by
        have : (calls.map (⟨·, none⟩ : _ → Thread V E))[i]? = some ⟨r :: rs, none⟩ := by rw [List.getElem?_map, hc]; rfl
        unfold step
        simp only [this]
      rw [h1]
      unfold step
      simp [hi, List.map_set]

/-- C104, for calls that do not overlap: the calls give the values that the same calls give in one thread (C67), in the order in which they are made. -/
theorem C104_serial_partial (d : Dist V E) (is : List Nat) (e : E) (calls : List (List (Randomiser V))) :
    (run d (is.flatMap fun i => [i, i]) (start e calls)).log =
      ((order is calls).map (·.1)).zip (draws d (fun _ => 0) (order is calls) (fun _ => e)).1 ∧
    (run d (is.flatMap fun i => [i, i]) (start e calls)).engine = (draws d (fun _ => 0) (order is calls) (fun _ => e)).2 0 := by
  have key : ∀ (is : List Nat) (es : Nat → E) (calls : List (List (Randomiser V))) (log : List (Nat × V)),
      (run d (is.flatMap fun i => [i, i]) ⟨es 0, calls.map (⟨·, none⟩), log⟩).log =
        log ++ ((order is calls).map (·.1)).zip (draws d (fun _ => 0) (order is calls) es).1 ∧
      (run d (is.flatMap fun i => [i, i]) ⟨es 0, calls.map (⟨·, none⟩), log⟩).engine = (draws d (fun _ => 0) (order is calls) es).2 0 := by
    intro is
    induction is with
    | nil => intro es calls log; simp [run, order, draws]
    | cons i is ih =>
      intro es calls log
      rw [List.flatMap_cons, run_append, two_steps]
      unfold order
      cases hn : next calls i with
      | none => exact ih es calls log
      | some x =>
        obtain ⟨r, calls'⟩ := x
        simp only [draws]
        have := ih (fun k => if k = 0 then (get d r (es 0)).2 else es k) calls' (log ++ [(i, (get d r (es 0)).1)])
        simp only [if_true] at this
        refine ⟨?_, this.2⟩
        rw [this.1]
        simp
  have := key is (fun _ => e) calls []
  simpa [start] using this

/-! ## All schedules -/

/-- C104: whatever the schedule, every value is one that the distribution gives for the bounds of a randomiser of that thread: it is in its interval
if the distribution keeps to its bounds. -/
theorem C104_bounds (d : Dist V E) (P : Randomiser V → V → Prop) (hd : ∀ r e, P r (get d r e).1) (e : E) (calls : List (List (Randomiser V)))
    (sched : List Nat) :
    ∀ x ∈ (run d sched (start e calls)).log, ∃ rs r, calls[x.1]? = some rs ∧ r ∈ rs ∧ P r x.2 := by
  have key : ∀ (sched : List Nat) (s : St V E),
      (∀ (i : Nat) (t : Thread V E), s.ts[i]? = some t → ∃ rs, calls[i]? = some rs ∧ (∀ r ∈ t.calls, r ∈ rs) ∧
        ∀ v e, t.held = some (v, e) → ∃ r ∈ rs, P r v) →
      (∀ x ∈ s.log, ∃ rs r, calls[x.1]? = some rs ∧ r ∈ rs ∧ P r x.2) →
      ∀ x ∈ (run d sched s).log, ∃ rs r, calls[x.1]? = some rs ∧ r ∈ rs ∧ P r x.2 := by
    intro sched
    induction sched with
    | nil => intro s _ h; exact h
    | cons i sched ih =>
      intro s h1 h2
      refine ih (step d i s) ?_ ?_
      · intro k u hu
        unfold step at hu
        cases ht : s.ts[i]? with
        | none => rw [ht] at hu; exact h1 k u hu
        | some t =>
          simp only [ht] at hu
          have set : ∀ a, (s.ts.set i a)[k]? = some u → (i = k ∧ u = a) ∨ s.ts[k]? = some u := by
            intro a h
            rw [List.getElem?_set] at h
            split at h
            · rename_i e
              split at h
              · exact .inl ⟨e, (Option.some.inj h).symm⟩
              · cases h
            · exact .inr h
          obtain ⟨rs, hrs, hc, hh⟩ := h1 i t ht
          split at hu
          · rcases set _ hu with ⟨rfl, rfl⟩ | hu
            · exact ⟨rs, hrs, fun r hr => hc r (List.mem_of_mem_tail hr), fun v e h => by cases h⟩
            · exact h1 k u hu
          · split at hu
            · exact h1 k u hu
            · rename_i r l hl
              rcases set _ hu with ⟨rfl, rfl⟩ | hu
              · refine ⟨rs, hrs, hc, fun v e h => ⟨r, hc r (by rw [hl]; exact List.mem_cons_self), ?_⟩⟩
                have : get d r s.engine = (v, e) := Option.some.inj h
                have h' := hd r s.engine
                rwa [this] at h'
              · exact h1 k u hu
      · intro x hx
        unfold step at hx
        cases ht : s.ts[i]? with
        | none => rw [ht] at hx; exact h2 x hx
        | some t =>
          simp only [ht] at hx
          obtain ⟨rs, hrs, hc, hh⟩ := h1 i t ht
          split at hx
          · rename_i v e he
            simp only [List.mem_append, List.mem_singleton] at hx
            rcases hx with hx | rfl
            · exact h2 x hx
            · obtain ⟨r, hr, hP⟩ := hh v e he
              exact ⟨rs, r, hrs, hr, hP⟩
          · split at hx
            · exact h2 x hx
            · exact h2 x hx
  refine key sched (start e calls) (fun i t ht => ?_) (fun x hx => by simp [start] at hx)
  simp only [start, List.getElem?_map, Option.map_eq_some_iff] at ht
  obtain ⟨rs, hrs, rfl⟩ := ht
  exact ⟨rs, hrs, fun _ h => h, fun v e h => by cases h⟩

/-- C104 is false for calls that overlap: two threads that read the engine before one of them has written it get the same value from like
randomisers, and the engine is advanced once only; a thread that is late sets the engine back, so that values
come again. -/
theorem C104_overlap_refuted (d : Dist V E) (r : Randomiser V) (e : E) :
    (run d [0, 1, 0, 1] (start e [[r], [r]])).log = [(0, (get d r e).1), (1, (get d r e).1)] ∧
    (run d [0, 1, 0, 1] (start e [[r], [r]])).engine = (get d r e).2 ∧
    (run d [0, 1, 1, 1, 1, 0, 1, 1] (start e [[r], [r, r, r]])).log =
      [(1, (get d r e).1), (1, (get d r (get d r e).2).1), (0, (get d r e).1), (1, (get d r (get d r e).2).1)] := by
  refine ⟨rfl, rfl, rfl⟩

/-- Two dice in two threads. -/
example : let d : Dist Int Nat := fun a b e => (a + (e : Int) % (b - a + 1), e * 5 + 3)
    (run d [0, 0, 1, 1, 0, 0] (start 4 [[⟨1, 6⟩, ⟨1, 6⟩], [⟨1, 6⟩]])).log = [(0, 5), (1, 6), (0, 5)] ∧
    order [0, 1, 0] [[⟨1, 6⟩, ⟨1, 6⟩], [(⟨1, 6⟩ : Randomiser Int)]] = [(0, ⟨1, 6⟩), (1, ⟨1, 6⟩), (0, ⟨1, 6⟩)] ∧
    (run d [0, 1, 0, 1] (start 4 [[⟨1, 6⟩, ⟨1, 6⟩], [⟨1, 6⟩]])).log = [(0, 5), (1, 5)] := ⟨rfl, rfl, rfl⟩

end Helper.Randomiser.Threads
