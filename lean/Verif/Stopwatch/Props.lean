import Verif.Stopwatch.Model
/-!
# Properties C52 and C53: Stopwatch
-/
namespace Helper.Stopwatch

/-- The calls of a history that read the clock. -/
def readings (ops : List Op) : List Op := ops.filter (· ≠ .query)

theorem foldl_readings (clock : Nat → Int) : ∀ (ops : List Op) (s : St),
    ops.foldl (step clock) s = (readings ops).foldl (step clock) s := by
  intro ops
  induction ops with
  | nil => intro s; rfl
  | cons o ops ih =>
    intro s
    cases o with
    | query => simpa [readings, step] using ih s
    | restart => simpa [readings] using ih (step clock s .restart)
    | click => simpa [readings] using ih (step clock s .click)

theorem foldl_clicks (clock : Nat → Int) : ∀ (m : Nat) (s : St),
    (List.replicate m .click).foldl (step clock) s =
      ⟨s.reads + m, s.initial, if m = 0 then s.clicked else clock (s.reads + m - 1)⟩ := by
  intro m
  induction m with
  | zero => intro s; rfl
  | succ m ih =>
    intro s
    rw [List.replicate_succ, List.foldl_cons, ih]
    simp only [step, click, Nat.succ_ne_zero, if_false]
    by_cases h : m = 0
    · subst h; simp
    · rw [if_neg h, show s.reads + 1 + m = s.reads + (m + 1) from by omega]

theorem foldl_reads (clock : Nat → Int) : ∀ (ops : List Op) (s : St), .query ∉ ops →
    (ops.foldl (step clock) s).reads = s.reads + ops.length := by
  intro ops
  induction ops with
  | nil => intro s _; rfl
  | cons o ops ih =>
    intro s h
    simp only [List.mem_cons, not_or] at h
    rw [List.foldl_cons, ih _ h.2]
    cases o with
    | query => exact absurd rfl h.1
    | restart => simp [step, restart]; omega
    | click => simp [step, click]; omega

/-- Truncation of an interval to the unit `u`, towards zero: the spec of `duration_cast`. -/
def Truncates (u : Nat) (d r : Int) : Prop :=
  (0 ≤ d → r * u ≤ d ∧ d < (r + 1) * u) ∧ (d ≤ 0 → d ≤ r * u ∧ (r - 1) * u < d)

theorem tdiv_truncates (u : Nat) (hu : 0 < u) (d : Int) : Truncates u d (d.tdiv u) := by
  have hu' : (0 : Int) < u := by omega
  constructor
  · intro hd
    rw [Int.tdiv_eq_ediv_of_nonneg hd]
    refine ⟨Int.ediv_mul_le d (by omega), Int.lt_mul_of_ediv_lt hu' (by omega)⟩
  · intro hd
    have : d.tdiv u = -((-d) / u) := by
      rw [← Int.tdiv_eq_ediv_of_nonneg (show 0 ≤ -d by omega), Int.neg_tdiv, Int.neg_neg]
    rw [this]
    have h1 : (-d) / (u : Int) * u ≤ -d := Int.ediv_mul_le _ (by omega)
    have h2 : -d < ((-d) / (u : Int) + 1) * u := Int.lt_mul_of_ediv_lt hu' (by omega)
    have e1 : -(-d / (u : Int)) * u = -(-d / (u : Int) * u) := by rw [Int.neg_mul]
    have e2 : (-(-d / (u : Int)) - 1) * u = -((-d / (u : Int) + 1) * u) := by
      rw [← Int.neg_mul]; congr 1; omega
    rw [e1, e2]
    omega

theorem truncates_unique {u : Nat} (hu : 0 < u) {d r s : Int} (h1 : Truncates u d r) (h2 : Truncates u d s) : r = s := by
  have hu' : (0 : Int) < u := by omega
  rcases Int.le_total 0 d with h | h
  · have a := h1.1 h
    have b := h2.1 h
    have l1 : r < s + 1 := Int.lt_of_mul_lt_mul_right (Int.lt_of_le_of_lt a.1 b.2) (by omega)
    have l2 : s < r + 1 := Int.lt_of_mul_lt_mul_right (Int.lt_of_le_of_lt b.1 a.2) (by omega)
    omega
  · have a := h1.2 h
    have b := h2.2 h
    have l1 : r - 1 < s := Int.lt_of_mul_lt_mul_right (Int.lt_of_lt_of_le a.2 b.1) (by omega)
    have l2 : s - 1 < r := Int.lt_of_mul_lt_mul_right (Int.lt_of_lt_of_le b.2 a.1) (by omega)
    omega

/-- C52: the two forms of a history, seen as the calls that read the clock: `m` clicks since the
construction, or `m` clicks since the last restart. -/
theorem C52_forms : ∀ (ops : List Op),
    (∃ m, readings ops = List.replicate m .click) ∨
    ∃ pre m, readings ops = pre ++ .restart :: List.replicate m .click := by
  intro ops
  induction ops with
  | nil => exact .inl ⟨0, rfl⟩
  | cons o ops ih =>
    cases o with
    | query => simpa [readings] using ih
    | restart =>
      rcases ih with ⟨m, h⟩ | ⟨pre, m, h⟩
      · exact .inr ⟨[], m, by simpa [readings] using h⟩
      · refine .inr ⟨.restart :: pre, m, ?_⟩
        simpa [readings] using h
    | click =>
      rcases ih with ⟨m, h⟩ | ⟨pre, m, h⟩
      · refine .inl ⟨m + 1, ?_⟩
        simpa [readings, List.replicate_succ] using h
      · refine .inr ⟨.click :: pre, m, ?_⟩
        simpa [readings] using h

/-- The time measured: the clock was read at construction (reading 0) and at each restart and click. -/
theorem run_since (clock : Nat → Int) (ops pre : List Op) (m : Nat)
    (h : readings ops = pre ++ .restart :: List.replicate m .click) :
    (run clock ops).initial = clock (pre.length + 1) ∧ (run clock ops).clicked = clock (pre.length + 1 + m) := by
  have hq : .query ∉ pre := by
    intro hq
    have : Op.query ∈ readings ops := by rw [h]; exact List.mem_append_left _ hq
    simp [readings] at this
  rw [run, foldl_readings, h, List.foldl_append, List.foldl_cons, foldl_clicks]
  have hr := foldl_reads clock pre (construct clock) hq
  generalize pre.foldl (step clock) (construct clock) = s at *
  have e : s.reads = pre.length + 1 := by rw [hr]; simp [construct, restart]; omega
  simp only [step, restart, e]
  refine ⟨trivial, ?_⟩
  by_cases h0 : m = 0
  · subst h0; simp
  · rw [if_neg h0]; congr 1; omega

theorem run_start (clock : Nat → Int) (ops : List Op) (m : Nat) (h : readings ops = List.replicate m .click) :
    (run clock ops).initial = clock 0 ∧ (run clock ops).clicked = clock m := by
  rw [run, foldl_readings, h, foldl_clicks]
  simp only [construct, restart]
  refine ⟨trivial, ?_⟩
  by_cases h0 : m = 0
  · subst h0; simp
  · rw [if_neg h0]; congr 1; omega

/-- `r` is the reading expected for the interval `d`. -/
def Reads (u : Nat) (d : Int) (r : Res Int) : Prop :=
  if -2 ^ 63 ≤ d ∧ d < 2 ^ 63 then ∃ q, r = .ok q ∧ Truncates u d q else r = .ub .overflow

theorem duration_reads (u : Nat) (hu : 0 < u) (s : St) : Reads u (s.clicked - s.initial) (duration u s) := by
  unfold Reads duration sub64
  split
  · exact ⟨_, rfl, tdiv_truncates u hu _⟩
  · rfl

/-- C52: `duration()` is the time from the last restart (or the construction) to the last click since, zero
if there is none, truncated towards zero to the unit; undefined if this time exceeds 64 bits. With `m`
clicks since the restart whose clock reading has number `j`, the last click has number `j+m`. -/
theorem C52_duration (clock : Nat → Int) (u : Nat) (hu : 0 < u) (ops : List Op) :
    (∀ m, readings ops = List.replicate m .click → Reads u (clock m - clock 0) (duration u (run clock ops))) ∧
    (∀ pre m, readings ops = pre ++ .restart :: List.replicate m .click →
      Reads u (clock (pre.length + 1 + m) - clock (pre.length + 1)) (duration u (run clock ops))) := by
  refine ⟨fun m h => ?_, fun pre m h => ?_⟩
  · obtain ⟨h1, h2⟩ := run_start clock ops m h
    rw [← h1, ← h2]; exact duration_reads u hu _
  · obtain ⟨h1, h2⟩ := run_since clock ops pre m h
    rw [← h1, ← h2]; exact duration_reads u hu _

/-- C52: `Reads` determines the reading. -/
theorem C52_unique (u : Nat) (hu : 0 < u) (d : Int) (r s : Res Int) (h1 : Reads u d r) (h2 : Reads u d s) : r = s := by
  unfold Reads at h1 h2
  split at h1
  · rename_i h
    rw [if_pos h] at h2
    obtain ⟨q, hq, ht⟩ := h1
    obtain ⟨q', hq', ht'⟩ := h2
    rw [hq, hq', truncates_unique hu ht ht']
  · rename_i h
    rw [if_neg h] at h2; rw [h1, h2]

/-- C52: without a click since the last restart the reading is zero. -/
theorem C52_zero (clock : Nat → Int) (u : Nat) (ops : List Op) :
    duration u (run clock (ops ++ [.restart])) = .ok 0 ∧ duration u (run clock []) = .ok 0 := by
  constructor
  · simp [run, List.foldl_append, step, restart, duration, sub64, Res.bind]
  · simp [run, construct, restart, duration, sub64, Res.bind]

/-- C52: the reading does not change between clicks and restarts, whatever the clock does. -/
theorem C52_stable (clock : Nat → Int) (ops : List Op) (n : Nat) :
    run clock (ops ++ List.replicate n .query) = run clock ops := by
  have : ∀ n s, (List.replicate n Op.query).foldl (step clock) s = s := by
    intro n
    induction n with
    | zero => intro s; rfl
    | succ n ih => intro s; exact ih s
  rw [run, List.foldl_append, this]; rfl

/-! ## C53 -/

/-- The clock never goes back, and its readings differ by less than 2^63. -/
structure Monotone (clock : Nat → Int) : Prop where
  mono : ∀ i j, i ≤ j → clock i ≤ clock j
  fits : ∀ i j, clock j - clock i < 2 ^ 63

theorem initial_le_clicked (clock : Nat → Int) (ops : List Op) :
    ∃ i j, i ≤ j ∧ (run clock ops).initial = clock i ∧ (run clock ops).clicked = clock j ∧ j < (run clock ops).reads := by
  have key : ∀ (ops : List Op) (s : St), (∃ i j, i ≤ j ∧ s.initial = clock i ∧ s.clicked = clock j ∧ j < s.reads) →
      ∃ i j, i ≤ j ∧ (ops.foldl (step clock) s).initial = clock i ∧ (ops.foldl (step clock) s).clicked = clock j ∧
        j < (ops.foldl (step clock) s).reads := by
    intro ops
    induction ops with
    | nil => intro s h; exact h
    | cons o ops ih =>
      rintro s ⟨i, j, hij, h1, h2, h3⟩
      apply ih
      cases o with
      | query => exact ⟨i, j, hij, h1, h2, h3⟩
      | restart => exact ⟨s.reads, s.reads, Nat.le_refl _, rfl, rfl, by simp [step, restart]⟩
      | click => exact ⟨i, s.reads, by omega, h1, rfl, by simp [step, click]⟩
  exact key ops _ ⟨0, 0, Nat.le_refl _, rfl, rfl, by simp [construct, restart]⟩

theorem tdiv_mono {u : Nat} (hu : 0 < u) {a b : Int} (ha : 0 ≤ a) (hab : a ≤ b) : 0 ≤ a.tdiv u ∧ a.tdiv u ≤ b.tdiv u := by
  rw [Int.tdiv_eq_ediv_of_nonneg ha, Int.tdiv_eq_ediv_of_nonneg (by omega)]
  exact ⟨Int.ediv_nonneg ha (by omega), Int.ediv_le_ediv (by omega) hab⟩

theorem no_restart (clock : Nat → Int) : ∀ (more : List Op) (s : St), .restart ∉ more →
    (more.foldl (step clock) s).initial = s.initial ∧
    ∀ j, s.clicked = clock j → j < s.reads →
      ∃ k, j ≤ k ∧ (more.foldl (step clock) s).clicked = clock k ∧ k < (more.foldl (step clock) s).reads := by
  intro more
  induction more with
  | nil => intro s _; exact ⟨rfl, fun j h1 h2 => ⟨j, Nat.le_refl _, h1, h2⟩⟩
  | cons o more ih =>
    intro s h
    simp only [List.mem_cons, not_or] at h
    rw [List.foldl_cons]
    cases o with
    | restart => exact absurd rfl h.1
    | query => exact ih s h.2
    | click =>
      have := ih (step clock s .click) h.2
      refine ⟨this.1, fun j h1 h2 => ?_⟩
      obtain ⟨k, hk, h3⟩ := this.2 s.reads rfl (by simp [step, click])
      exact ⟨k, by omega, h3⟩

/-- C53: if the clock never goes back, readings are defined, never negative, and never decrease without a
restart, in any history. -/
theorem C53_monotone (clock : Nat → Int) (hc : Monotone clock) (u : Nat) (hu : 0 < u) (ops more : List Op)
    (hm : .restart ∉ more) :
    ∃ q r, duration u (run clock ops) = .ok q ∧ duration u (run clock (ops ++ more)) = .ok r ∧ 0 ≤ q ∧ q ≤ r := by
  obtain ⟨i, j, hij, h1, h2, h3⟩ := initial_le_clicked clock ops
  have hn := no_restart clock more (run clock ops) hm
  obtain ⟨k, hjk, h4, _⟩ := hn.2 j h2 h3
  have hrun : run clock (ops ++ more) = more.foldl (step clock) (run clock ops) := by
    simp [run, List.foldl_append]
  rw [← hrun] at h4 hn
  have e1 : (run clock (ops ++ more)).initial = clock i := hn.1.trans h1
  have m1 := hc.mono i j hij
  have m2 := hc.mono j k hjk
  have f1 := hc.fits i j
  have f2 := hc.fits i k
  refine ⟨(clock j - clock i).tdiv u, (clock k - clock i).tdiv u, ?_, ?_, ?_⟩
  · rw [duration, sub64, h1, h2, if_pos ⟨by omega, f1⟩]; rfl
  · rw [duration, sub64, e1, h4, if_pos ⟨by omega, f2⟩]; rfl
  · exact tdiv_mono hu (by omega) (by omega)

/-- C53: the reading is less than one unit below the true interval. -/
theorem C53_accurate (clock : Nat → Int) (hc : Monotone clock) (u : Nat) (hu : 0 < u) (ops pre : List Op) (m : Nat)
    (h : readings ops = pre ++ .restart :: List.replicate m .click) :
    ∃ q, duration u (run clock ops) = .ok q ∧
      q * u ≤ clock (pre.length + 1 + m) - clock (pre.length + 1) ∧
      clock (pre.length + 1 + m) - clock (pre.length + 1) < q * u + u := by
  have hr := (C52_duration clock u hu ops).2 pre m h
  have m1 := hc.mono (pre.length + 1) (pre.length + 1 + m) (by omega)
  have f1 := hc.fits (pre.length + 1) (pre.length + 1 + m)
  rw [Reads, if_pos ⟨by omega, f1⟩] at hr
  obtain ⟨q, hq, ht⟩ := hr
  have := ht.1 (by omega)
  refine ⟨q, hq, this.1, ?_⟩
  have e : (q + 1) * (u : Int) = q * u + u := by rw [Int.add_mul, Int.one_mul]
  omega

/-- C53: `elapsed_seconds()` is the reading in seconds: reading times `u` nanoseconds. -/
theorem C53_elapsed (u : Nat) (s : St) (q : Int) (h : duration u s = .ok q) :
    ∃ r : Rat, elapsedSeconds u s = .ok r ∧ r * 1000000000 = (q : Rat) * (u : Rat) := by
  refine ⟨(q : Rat) * (u : Rat) / 1000000000, by rw [elapsedSeconds, h]; rfl, ?_⟩
  exact Rat.div_mul_cancel (by decide)

/-- C53: nothing prevents a negative reading when the clock goes back. -/
theorem C53_backwards (u : Nat) (hu : 0 < u) (hf : u < 2 ^ 63) (clock : Nat → Int) (h : clock 1 = clock 0 - u) :
    duration u (run clock [.click]) = .ok (-1) := by
  have e : clock 1 - clock 0 = -(u : Int) := by omega
  simp only [run, List.foldl_cons, List.foldl_nil, step, click, construct, restart, duration, sub64, Nat.zero_add, e]
  rw [if_pos (by omega)]
  simp only [Res.bind]
  congr 1
  rw [Int.neg_tdiv, Int.tdiv_self (by omega)]

/-- A clock that ticks every 700 µs. -/
example : let clock : Nat → Int := fun k => 700000 * k
    duration 1000000 (run clock [.click, .query, .click, .click]) = .ok 2 ∧
    elapsedSeconds 1000000 (run clock [.click, .click, .click]) = .ok (1 / 500) ∧
    duration 1000 (run clock [.click, .restart, .click, .query]) = .ok 700 := by decide +kernel

end Helper.Stopwatch
