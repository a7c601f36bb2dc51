import Verif.Basic
/-!
# One-time diagnostics in threads (macros.hpp:149-154, 166-171), property C103

One call site of `HELPER_WARN_ONCE` or `HELPER_DEPRECATED`, reached by several threads. The static variable `first_time` is initialised before the threads run
(its initialiser is a constant) and is not atomic. Other call sites have variables of their own. A step of a thread is an access of the
variable or the writing of the message. A schedule is the list of the threads that take a step. The message can be evaluated.
-/
set_option linter.unusedSectionVars false
namespace Helper.Macro.Threads

/-- Where a thread is. -/
inductive Phase where
  /-- not in the macro, or before line 168 -/ | idle
  /-- line 169: the condition held -/ | clear
  /-- line 170 -/ | print
deriving DecidableEq, Repr

structure Thread where
  /-- how often the thread will still reach the call site, counting the visit it is in -/
  visits : Nat
  phase : Phase
deriving DecidableEq, Repr

structure St where
  /-- line 167 `first_time` -/
  first : Bool
  ts : List Thread
  /-- the threads that have printed the message, in order -/
  out : List Nat
deriving DecidableEq, Repr

/-- One step of thread `i`. -/
def step (i : Nat) (s : St) : St :=
  match s.ts[i]? with
  | none => s
  | some t =>
    match t.phase with
    | .idle =>
      if t.visits = 0 then s
      else if s.first then { s with ts := s.ts.set i { t with phase := .clear } }
      else { s with ts := s.ts.set i { t with visits := t.visits - 1 } }
    | .clear => { s with first := false, ts := s.ts.set i { t with phase := .print } }
    | .print => { s with ts := s.ts.set i ⟨t.visits - 1, .idle⟩, out := s.out ++ [i] }

def run (sched : List Nat) (s : St) : St := sched.foldl (fun s i => step i s) s

/-- The threads will reach the call site so many times each. -/
def start (visits : List Nat) : St := ⟨true, visits.map fun n => ⟨n, .idle⟩, []⟩

/-- Whether the next step of the thread accesses `first_time`, and whether it writes. -/
def Thread.access (t : Thread) : Option Bool :=
  match t.phase with
  | .idle => if t.visits = 0 then none else some false
  | .clear => some true
  | .print => none

/-- Two threads are about to access the variable, one of them to write it. -/
def Race (s : St) : Prop :=
  ∃ (i j : Nat) (t u : Thread) (a b : Bool), i ≠ j ∧ s.ts[i]? = some t ∧ s.ts[j]? = some u ∧ t.access = some a ∧ u.access = some b ∧
    (a = true ∨ b = true)

/-! ## What holds for all schedules -/

/-- Thread `i` has printed at most once, and only if the variable is false and it is not about to print. -/
structure Inv (s : St) : Prop where
  count : ∀ i, s.out.count i ≤ 1
  busy : ∀ (i : Nat) (t : Thread), s.ts[i]? = some t → t.phase ≠ .idle → i ∉ s.out ∧ t.visits ≠ 0
  print : ∀ (i : Nat) (t : Thread), s.ts[i]? = some t → t.phase = .print → s.first = false
  out : s.out ≠ [] → s.first = false
  inner : ∀ i ∈ s.out, i < s.ts.length

theorem set_get {ts : List Thread} {i k : Nat} {a u : Thread} (h : (ts.set i a)[k]? = some u) : (i = k ∧ u = a) ∨ (i ≠ k ∧ ts[k]? = some u) := by
  rw [List.getElem?_set] at h
  split at h
  · rename_i e
    split at h
    · exact .inl ⟨e, (Option.some.inj h).symm⟩
    · cases h
  · rename_i e; exact .inr ⟨e, h⟩

theorem inv_start (visits : List Nat) : Inv (start visits) := by
  have hi : ∀ (i : Nat) (t : Thread), (start visits).ts[i]? = some t → t.phase = .idle := by
    intro i t h
    simp only [start, List.getElem?_map, Option.map_eq_some_iff] at h
    obtain ⟨n, _, rfl⟩ := h
    rfl
  refine ⟨fun _ => by simp [start], fun i t h hp => absurd (hi i t h) hp, fun i t h hp => ?_, fun h => absurd rfl h, fun i h => ?_⟩
  · rw [hi i t h] at hp; cases hp
  · simp [start] at h

theorem inv_step {s : St} (h : Inv s) (i : Nat) : Inv (step i s) := by
  unfold step
  cases ht : s.ts[i]? with
  | none => exact h
  | some t =>
    simp only
    cases hp : t.phase with
    | idle =>
      simp only
      split
      · exact h
      · rename_i hv
        split
        · rename_i hf
          have ho : s.out = [] := by
            apply Classical.byContradiction
            intro hne
            rw [h.out hne] at hf
            cases hf
          refine ⟨h.count, fun k u hu hb => ?_, fun k u hu hb => ?_, h.out, fun k hk => ?_⟩
          · rcases set_get hu with ⟨rfl, rfl⟩ | ⟨_, hu⟩
            · exact ⟨by simp [ho], hv⟩
            · exact h.busy k u hu hb
          · rcases set_get hu with ⟨rfl, rfl⟩ | ⟨_, hu⟩
            · cases hb
            · exact h.print k u hu hb
          · simpa using h.inner k hk
        · refine ⟨h.count, fun k u hu hb => ?_, fun k u hu hb => ?_, h.out, fun k hk => ?_⟩
          · rcases set_get hu with ⟨rfl, rfl⟩ | ⟨_, hu⟩
            · exact absurd rfl hb
            · exact h.busy k u hu hb
          · rcases set_get hu with ⟨rfl, rfl⟩ | ⟨_, hu⟩
            · cases hb
            · exact h.print k u hu hb
          · simpa using h.inner k hk
    | clear =>
      simp only
      refine ⟨h.count, fun k u hu hb => ?_, fun _ _ _ _ => rfl, fun _ => rfl, fun k hk => ?_⟩
      · rcases set_get hu with ⟨rfl, rfl⟩ | ⟨_, hu⟩
        · exact h.busy i t ht (by rw [hp]; decide)
        · exact h.busy k u hu hb
      · simpa using h.inner k hk
    | print =>
      simp only
      have hf := h.print i t ht hp
      have hb := (h.busy i t ht (by rw [hp]; decide)).1
      refine ⟨fun k => ?_, fun k u hu hk => ?_, fun _ _ _ _ => hf, fun _ => hf, fun k hk => ?_⟩
      · by_cases e : k = i
        · subst e
          simp [List.count_append, List.count_eq_zero_of_not_mem hb]
        · have := h.count k
          simp only [List.count_append]
          rw [List.count_eq_zero_of_not_mem (a := k) (l := [i]) (by simpa using e)]
          exact this
      · rcases set_get hu with ⟨rfl, rfl⟩ | ⟨e, hu⟩
        · exact absurd rfl hk
        · obtain ⟨h1, h2⟩ := h.busy k u hu hk
          refine ⟨?_, h2⟩
          simp only [List.mem_append, List.mem_singleton, not_or]
          exact ⟨h1, fun e' => e e'.symm⟩
      · simp only [List.mem_append, List.mem_singleton] at hk
        rcases hk with hk | rfl
        · simpa using h.inner k hk
        · simpa using (List.getElem?_eq_some_iff.1 ht).1

theorem inv_run {s : St} (h : Inv s) (sched : List Nat) : Inv (run sched s) := by
  induction sched generalizing s with
  | nil => exact h
  | cons i r ih => exact ih (inv_step h i)

theorem step_length (i : Nat) (s : St) : (step i s).ts.length = s.ts.length := by
  unfold step
  (repeat' split) <;> simp

theorem run_length (sched : List Nat) (s : St) : (run sched s).ts.length = s.ts.length := by
  induction sched generalizing s with
  | nil => rfl
  | cons i r ih => exact (ih (step i s)).trans (step_length i s)

/-- C103: no thread prints the message twice; there are at most as many messages as threads. -/
theorem C103_perThread (visits : List Nat) (sched : List Nat) :
    (∀ i, (run sched (start visits)).out.count i ≤ 1) ∧ (run sched (start visits)).out.length ≤ visits.length := by
  have h := inv_run (inv_start visits) sched
  refine ⟨h.count, ?_⟩
  have hn : (run sched (start visits)).out.Nodup := List.nodup_iff_count.2 h.count
  have hlen : (run sched (start visits)).ts.length = visits.length := by rw [run_length]; simp [start]
  have hs : (run sched (start visits)).out ⊆ List.range visits.length := by
    intro i hi
    rw [List.mem_range, ← hlen]
    exact h.inner i hi
  have := hn.length_le_of_subset hs
  rwa [List.length_range] at this

/-- Nothing has been finished while the variable is true; when it is false, the message has been printed or a thread is about to print it. -/
structure Live (visits : List Nat) (s : St) : Prop where
  len : s.ts.length = visits.length
  before : s.first = true → s.ts.map (·.visits) = visits
  after : s.first = false → s.out ≠ [] ∨ ∃ (i : Nat) (t : Thread), s.ts[i]? = some t ∧ t.phase = .print

theorem map_set_visits {ts : List Thread} {i : Nat} {t : Thread} (h : ts[i]? = some t) (p : Phase) :
    (ts.set i { t with phase := p }).map (·.visits) = ts.map (·.visits) := by
  apply List.ext_getElem?
  intro k
  simp only [List.getElem?_map, List.getElem?_set]
  split
  · rename_i e
    subst e
    rw [h, if_pos (List.getElem?_eq_some_iff.1 h).1]
    rfl
  · rfl

theorem live_step {visits : List Nat} {s : St} (hi : Inv s) (hl : Live visits s) (i : Nat) : Live visits (step i s) := by
  refine ⟨(step_length i s).trans hl.len, ?_, ?_⟩
  · unfold step
    cases ht : s.ts[i]? with
    | none => exact hl.before
    | some t =>
      simp only
      cases hp : t.phase with
      | idle =>
        simp only
        split
        · exact hl.before
        · split
          · rename_i hf
            intro _
            exact (map_set_visits ht .clear).trans (hl.before hf)
          · rename_i hf
            intro h
            exact absurd h hf
      | clear => intro h; cases h
      | print =>
        intro h
        have h' : s.first = true := h
        rw [hi.print i t ht hp] at h'
        cases h'
  · unfold step
    cases ht : s.ts[i]? with
    | none => exact hl.after
    | some t =>
      simp only
      -- a thread that is about to print and is not thread `i` stays so
      have other : ∀ a : Thread, t.phase ≠ .print → (∃ (k : Nat) (u : Thread), s.ts[k]? = some u ∧ u.phase = .print) →
          ∃ (k : Nat) (u : Thread), (s.ts.set i a)[k]? = some u ∧ u.phase = .print := by
        rintro a hne ⟨k, u, hk, hu⟩
        refine ⟨k, u, ?_, hu⟩
        have : i ≠ k := by
          rintro rfl
          rw [ht] at hk
          rw [Option.some.inj hk] at hne
          exact hne hu
        rw [List.getElem?_set_ne this]
        exact hk
      cases hp : t.phase with
      | idle =>
        have hne : t.phase ≠ .print := by rw [hp]; decide
        simp only
        split
        · exact hl.after
        · split
          · rename_i hf
            intro h
            have : s.first = false := h
            rw [hf] at this
            cases this
          · intro h
            rcases hl.after h with h' | h'
            · exact .inl h'
            · exact .inr (other _ hne h')
      | clear =>
        intro _
        refine .inr ⟨i, ⟨t.visits, .print⟩, ?_, rfl⟩
        simp [List.getElem?_set_self (List.getElem?_eq_some_iff.1 ht).1]
      | print =>
        intro _
        exact .inl (by simp)

theorem live_run {visits : List Nat} {s : St} (hi : Inv s) (hl : Live visits s) (sched : List Nat) : Live visits (run sched s) := by
  induction sched generalizing s with
  | nil => exact hl
  | cons i r ih => exact ih (inv_step hi i) (live_step hi hl i)

/-- C103: the message is not lost: when no thread is in the macro and a visit has been finished, it has been printed. -/
theorem C103_notLost (visits : List Nat) (sched : List Nat) (hidle : ∀ t ∈ (run sched (start visits)).ts, t.phase = .idle)
    (h : (run sched (start visits)).ts.map (·.visits) ≠ visits) : (run sched (start visits)).out ≠ [] := by
  have h0 : Live visits (start visits) := by
    refine ⟨by simp [start], fun _ => ?_, fun h => by cases h⟩
    simp [start, Function.comp_def]
  have hl := live_run (inv_start visits) h0 sched
  cases hf : (run sched (start visits)).first with
  | true => exact absurd (hl.before hf) h
  | false =>
    rcases hl.after hf with h' | ⟨i, t, ht, hp⟩
    · exact h'
    · rw [hidle t (List.mem_of_getElem? ht)] at hp
      cases hp

/-- C103: once the message has been printed and no thread is in the macro, it is not printed again. -/
theorem quiet {s : St} (hf : s.first = false) (hi : ∀ t ∈ s.ts, t.phase = .idle) (sched : List Nat) : (run sched s).out = s.out := by
  induction sched generalizing s with
  | nil => rfl
  | cons i r ih =>
    have key : (step i s).first = false ∧ (∀ t ∈ (step i s).ts, t.phase = .idle) ∧ (step i s).out = s.out := by
      unfold step
      cases ht : s.ts[i]? with
      | none => exact ⟨hf, hi, rfl⟩
      | some t =>
        have hp := hi t (List.mem_of_getElem? ht)
        simp only [hp, hf]
        split
        · exact ⟨hf, hi, rfl⟩
        · refine ⟨rfl, fun u hu => ?_, rfl⟩
          rcases List.mem_or_eq_of_mem_set hu with h | rfl
          · exact hi u h
          · rfl
    exact (ih key.1 key.2.1).trans key.2.2

/-- C103, if the first visit is finished before another thread comes to the call site: the message is printed exactly once, whatever the
threads do afterwards. -/
theorem C103_first_partial (visits : List Nat) (i n : Nat) (hi : visits[i]? = some (n + 1)) (sched : List Nat) :
    (run (i :: i :: i :: sched) (start visits)).out = [i] := by
  have hl : i < visits.length := (List.getElem?_eq_some_iff.1 hi).1
  have e0 : (start visits).ts[i]? = some ⟨n + 1, .idle⟩ := by simp [start, hi]
  have e1 : step i (start visits) = ⟨true, (start visits).ts.set i ⟨n + 1, .clear⟩, []⟩ := by
    simp only [step, e0]
    simp [start]
  have e2 : step i (step i (start visits)) = ⟨false, (start visits).ts.set i ⟨n + 1, .print⟩, []⟩ := by
    rw [e1]
    simp [step, start, hl]
  have e3 : step i (step i (step i (start visits))) = ⟨false, (start visits).ts.set i ⟨n, .idle⟩, [i]⟩ := by
    rw [e2]
    simp [step, start, hl]
  show (run sched (step i (step i (step i (start visits))))).out = [i]
  rw [e3]
  refine quiet (s := ⟨false, (start visits).ts.set i ⟨n, .idle⟩, [i]⟩) rfl (fun t ht => ?_) sched
  rcases List.mem_or_eq_of_mem_set ht with h | rfl
  · simp only [start, List.mem_map] at h
    obtain ⟨m, _, rfl⟩ := h
    rfl
  · rfl

/-! ## Threads that come at the same time -/

/-- The threads before `k` are in phase `p`, the others in phase `q`. -/
def mixed (visits : List Nat) (p q : Phase) (k : Nat) : List Thread :=
  (visits.take k).map (⟨·, p⟩) ++ (visits.drop k).map (⟨·, q⟩)

theorem mixed_get {visits : List Nat} {p q : Phase} {k : Nat} (hk : k < visits.length) :
    (mixed visits p q k)[k]? = some ⟨visits[k], q⟩ := by
  unfold mixed
  rw [List.getElem?_append_right (by simp; omega)]
  simp [Nat.min_eq_left (Nat.le_of_lt hk), hk]

theorem mixed_set {visits : List Nat} {p q : Phase} {k : Nat} (hk : k < visits.length) :
    (mixed visits p q k).set k ⟨visits[k], p⟩ = mixed visits p q (k + 1) := by
  apply List.ext_getElem?
  intro j
  rw [List.getElem?_set]
  unfold mixed
  have hl : ∀ m, m ≤ visits.length → ((visits.take m).map (Thread.mk · p)).length = m := fun m hm => by simp; omega
  rcases Nat.lt_trichotomy j k with h | h | h
  · rw [if_neg (by omega), List.getElem?_append_left (by rw [hl _ (by omega)]; exact h),
      List.getElem?_append_left (by rw [hl _ (by omega)]; omega)]
    simp only [List.getElem?_map, List.getElem?_take]
    rw [if_pos h, if_pos (by omega)]
  · subst h
    rw [if_pos rfl, if_pos (by simp; omega), List.getElem?_append_left (by rw [hl _ (by omega)]; omega)]
    simp [hk]
  · rw [if_neg (by omega), List.getElem?_append_right (by rw [hl _ (by omega)]; omega),
      List.getElem?_append_right (by rw [hl _ (by omega)]; omega), hl _ (by omega), hl _ (by omega)]
    simp only [List.getElem?_map, List.getElem?_drop]
    congr 2
    omega

theorem mixed_all (visits : List Nat) (p q : Phase) : mixed visits p q visits.length = visits.map (⟨·, p⟩) := by
  simp [mixed]

theorem mixed_zero (visits : List Nat) (p q : Phase) : mixed visits p q 0 = visits.map (⟨·, q⟩) := by
  simp [mixed]

theorem run_append (a b : List Nat) (s : St) : run (a ++ b) s = run b (run a s) := List.foldl_append

theorem sweep1 {visits : List Nat} (hv : ∀ n ∈ visits, n ≠ 0) (k : Nat) (hk : k ≤ visits.length) :
    run (List.range k) (start visits) = ⟨true, mixed visits .clear .idle k, []⟩ := by
  induction k with
  | zero => simp [run, start, mixed_zero]
  | succ k ih =>
    rw [List.range_succ, run_append, ih (by omega)]
    show step k _ = _
    have : visits[k] ≠ 0 := hv _ (List.getElem_mem _)
    simp only [step, mixed_get (show k < visits.length by omega)]
    rw [if_neg this]
    simp only [if_true]
    rw [mixed_set]

theorem sweep2 (visits : List Nat) (k : Nat) (hk : k ≤ visits.length) :
    run (List.range k) ⟨true, visits.map (⟨·, .clear⟩), []⟩ = ⟨decide (k = 0), mixed visits .print .clear k, []⟩ := by
  induction k with
  | zero => simp [run, mixed_zero]
  | succ k ih =>
    rw [List.range_succ, run_append, ih (by omega)]
    show step k _ = _
    simp only [step, mixed_get (show k < visits.length by omega)]
    rw [mixed_set]
    simp

theorem sweep3 (visits : List Nat) (f : Bool) (k : Nat) (hk : k ≤ visits.length) :
    (run (List.range k) ⟨f, visits.map (⟨·, .print⟩), []⟩).out = List.range k ∧
      ∀ j, k ≤ j → (run (List.range k) ⟨f, visits.map (⟨·, .print⟩), []⟩).ts[j]? = (visits[j]?).map (⟨·, .print⟩) := by
  induction k with
  | zero => simp [run]
  | succ k ih =>
    obtain ⟨h1, h2⟩ := ih (by omega)
    rw [List.range_succ, run_append]
    generalize run (List.range k) ⟨f, visits.map (⟨·, .print⟩), []⟩ = s at *
    show (step k s).out = _ ∧ ∀ j, k + 1 ≤ j → (step k s).ts[j]? = _
    have e : s.ts[k]? = some ⟨visits[k], .print⟩ := by rw [h2 k (Nat.le_refl _)]; simp [show k < visits.length by omega]
    simp only [step, e]
    refine ⟨by rw [h1], fun j hj => ?_⟩
    rw [List.getElem?_set_ne (by omega)]
    exact h2 j (by omega)

/-- C103 is false: if all threads read the variable before one of them has cleared it, each of them prints the message; any two threads that reach the
call site can get into a data race. -/
theorem C103_all_refuted (visits : List Nat) (hv : ∀ n ∈ visits, n ≠ 0) :
    (∃ sched, (run sched (start visits)).out = List.range visits.length) ∧
    ∀ i j, i < visits.length → j < visits.length → i ≠ j → Race (run [i] (start visits)) := by
  constructor
  · refine ⟨List.range visits.length ++ (List.range visits.length ++ List.range visits.length), ?_⟩
    rw [run_append, run_append, sweep1 hv _ (Nat.le_refl _), mixed_all, sweep2 _ _ (Nat.le_refl _), mixed_all]
    exact (sweep3 visits _ _ (Nat.le_refl _)).1
  · intro i j hi hj hij
    have h1 : visits[i] ≠ 0 := hv _ (List.getElem_mem _)
    have h2 : visits[j] ≠ 0 := hv _ (List.getElem_mem _)
    have e : run [i] (start visits) = ⟨true, (start visits).ts.set i ⟨visits[i], .clear⟩, []⟩ := by
      show step i _ = _
      simp [step, start, hi, h1]
    rw [e]
    refine ⟨i, j, ⟨visits[i], .clear⟩, ⟨visits[j], .idle⟩, true, false, hij, ?_, ?_, rfl, ?_, .inl rfl⟩
    · simp [start, hi]
    · show ((start visits).ts.set i _)[j]? = _
      rw [List.getElem?_set_ne hij]
      simp [start, hj]
    · simp [Thread.access, h2]

example : (run [0, 1, 0, 1, 0, 1, 1, 0] (start [2, 3])).out = [0, 1] ∧ (run [1, 1, 1, 0, 0, 1, 1, 0] (start [2, 3])).out = [1] ∧
    (run [1, 1, 1, 0, 0, 1, 1, 0] (start [2, 3])).ts = [⟨0, .idle⟩, ⟨0, .idle⟩] := by decide

end Helper.Macro.Threads
