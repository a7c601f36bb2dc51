import Verif.LRU.Refs
/-!
# C108: a function memoised through an `LRUCache`

The intended use of the class: `if (not cache.has_label(x)) cache.put(x,f(x)); return cache.get(x);`. Accesses are listed
newest first.
-/
set_option linter.unusedSectionVars false
namespace Helper.LRU

variable {L : Type u} {V : Type v} [Cmp L]

/-! ## The client program -/

/-- One access of the client: `has_label` (lru_cache.hpp:56), and on a miss `put` (lines 80-93) of the value computed by `f`, then
`get` (lines 60-69). `f` returns a value or throws; the argument of `put` is computed before `put` is entered. -/
def access (f : L → Except Exn V) (c : Cache L V) (x : L) : Res (Out V) × Cache L V :=
  if hasLabel c x then call c (.get x)
  else
    match f x with
    | .error e => (.exn e, c)
    | .ok v =>
      match call c (.put x v) with
      | (.ok _, c') => call c' (.get x)
      | r => r

/-- The cache of maximum size `n` after the accesses `h`, newest first. -/
def memo (f : L → Except Exn V) (n : Nat) : List L → Cache L V
  | [] => empty n
  | x :: h => (access f (memo f n h) x).2

/-- The number of calls of `f` made by the accesses `h`: one for every access that does not find its label. -/
def evaluations (f : L → Except Exn V) (n : Nat) : List L → Nat
  | [] => 0
  | x :: h => evaluations f n h + if hasLabel (memo f n h) x then 0 else 1

/-! ## Specification -/

/-- Pairwise different labels. -/
def Distinct (D : List L) : Prop := D.Pairwise (fun a b => Cmp.equiv a b = false)

/-- Does `f` return a value for this label? -/
def returns (f : L → Except Exn V) (x : L) : Bool :=
  match f x with
  | .ok _ => true
  | .error _ => false

/-- `x` occurs in `S`. -/
def occurs (x : L) (S : List L) : Bool := S.any (fun y => Cmp.equiv y x)

/-- Any way at all of serving the accesses `h` (newest first) from a store of `k` values of `f`, also one that knows the future:
`Serves f k h S c` says that the store can hold the values of the labels `S` in the end, `f` having been called `c` times. At
every access the store may be changed arbitrarily; every label that was not there before is a call of `f`. If `f` returns a value
for the label accessed, the store must hold it afterwards; if it throws, there is nothing to store and `f` is called to find out. -/
inductive Serves (f : L → Except Exn V) (k : Nat) : List L → List L → Nat → Prop where
  | nil : Serves f k [] [] 0
  | step {h S c x S'} : Serves f k h S c → Distinct S' → S'.length ≤ k → returns f x = true → occurs x S' = true →
      Serves f k (x :: h) S' (c + (S'.filter (fun y => !occurs y S)).length)
  | throws {h S c x S'} : Serves f k h S c → Distinct S' → S'.length ≤ k → returns f x = false →
      Serves f k (x :: h) S' (c + (S'.filter (fun y => !occurs y S)).length + 1)

/-! ## Proofs -/

/-- The labels accessed, most recent first, each once. -/
def recentLabels : List L → List L
  | [] => []
  | x :: h => x :: (recentLabels h).filter (fun y => !Cmp.equiv y x)

variable [StrictWeak L]

theorem occurs_iff {x : L} {S : List L} : occurs x S = true ↔ ∃ y ∈ S, Cmp.equiv y x = true := by
  simp [occurs]

theorem occurs_congr {a b : L} (h : Cmp.equiv a b = true) (S : List L) : occurs a S = occurs b S := by
  unfold occurs; simp only [Cmp.equiv_of_equiv_right h]

theorem recentLabels_distinct (h : List L) : Distinct (recentLabels h) := by
  induction h with
  | nil => simp [recentLabels, Distinct]
  | cons x h ih =>
    refine List.pairwise_cons.2 ⟨fun y hy => ?_, ih.filter _⟩
    have := (List.mem_filter.1 hy).2
    rw [Cmp.equiv_comm]; simpa using this

theorem recentLabels_mem {h : List L} {x : L} (hx : x ∈ recentLabels h) : x ∈ h := by
  induction h with
  | nil => simp [recentLabels] at hx
  | cons y h ih =>
    rcases List.mem_cons.1 hx with rfl | hx
    · simp
    · exact List.mem_cons_of_mem _ (ih (List.mem_filter.1 hx).1)

theorem recentLabels_occurs (h : List L) (x : L) : occurs x (recentLabels h) = occurs x h := by
  induction h with
  | nil => rfl
  | cons y h ih =>
    rw [Bool.eq_iff_iff] at ih ⊢
    simp only [occurs_iff] at ih ⊢
    simp only [recentLabels, List.mem_cons, List.mem_filter]
    constructor
    · rintro ⟨z, rfl | ⟨hz, _⟩, hzx⟩
      · exact ⟨z, .inl rfl, hzx⟩
      · obtain ⟨w, hw, h2⟩ := ih.1 ⟨z, hz, hzx⟩
        exact ⟨w, .inr hw, h2⟩
    · rintro ⟨z, rfl | hz, hzx⟩
      · exact ⟨z, .inl rfl, hzx⟩
      · by_cases hy : Cmp.equiv y x = true
        · exact ⟨y, .inl rfl, hy⟩
        · obtain ⟨w, hw, h2⟩ := ih.2 ⟨z, hz, hzx⟩
          refine ⟨w, .inr ⟨hw, ?_⟩, h2⟩
          rw [Cmp.equiv_of_equiv_left h2, Cmp.equiv_comm]
          simpa using hy

/-- Pairwise different labels that all occur in a list are no more than the list has. -/
theorem Distinct.length_le {P Q : List L} (h : Distinct P) (hPQ : ∀ p ∈ P, occurs p Q = true) :
    P.length ≤ Q.length := by
  induction P generalizing Q with
  | nil => simp
  | cons p P ih =>
    obtain ⟨h1, h2⟩ := List.pairwise_cons.1 h
    obtain ⟨q, hq, hqp⟩ := occurs_iff.1 (hPQ p (by simp))
    obtain ⟨a, b, rfl⟩ := List.append_of_mem hq
    have := ih (Q := a ++ b) h2 (fun r hr => by
      obtain ⟨z, hz, hzr⟩ := occurs_iff.1 (hPQ r (List.mem_cons_of_mem _ hr))
      have hne : z ≠ q := by
        intro hzq
        rw [hzq, Cmp.equiv_of_equiv_left hqp, h1 r hr] at hzr
        simp at hzr
      refine occurs_iff.2 ⟨z, ?_, hzr⟩
      simp only [List.mem_append, List.mem_cons] at hz ⊢
      rcases hz with h | h | h
      · exact .inl h
      · exact absurd h hne
      · exact .inr h)
    simp only [List.length_append, List.length_cons] at this ⊢
    omega

/-- The state of the memoising client: the cache holds the most recent labels and their values. -/
structure MemoInv (f : L → Except Exn V) (n : Nat) (h : List L) (c : Cache L V) (t : List (Event L V)) (s : Spec L V) :
    Prop where
  rep : Rep c s
  hist : Hist t s
  cap : s.cap = n
  recent : recency t = (recentLabels (h.filter (returns f))).map cls
  vals : ∀ p ∈ s.items, f p.1 = .ok p.2 ∧ p.1 ∈ h

theorem recency_use {t : List (Event L V)} {R : List L} (h : recency t = R.map cls) {ev : Event L V} {k : L}
    (hu : usedLabel ev = some k) :
    recency (ev :: t) = (k :: R.filter (fun y => !Cmp.equiv y k)).map cls := by
  have : recency (ev :: t) = cls k :: (recency t).filter (fun c => !c k) := by
    conv => lhs; unfold recency
    rw [hu]
  rw [this, h, List.filter_map]; rfl

theorem MemoInv.has {f : L → Except Exn V} {n : Nat} {h : List L} {c : Cache L V} {t : List (Event L V)} {s : Spec L V}
    (hi : MemoInv f n h c t s) (x : L) :
    hasLabel c x = occurs x ((recentLabels (h.filter (returns f))).take n) := by
  rw [hi.rep.has_eq, Bool.eq_iff_iff, occurs_iff]
  have h1 := hi.hist.recent
  rw [hi.recent, hi.cap, ← List.map_take] at h1
  have : s.has x = (s.items.map (fun p => cls p.1)).any (fun c => c x) := by
    rw [List.any_map]; rfl
  rw [this, h1, List.any_map, List.any_eq_true]
  rfl

theorem Spec.get_hit {s : Spec L V} {x : L} (hx : s.has x = true) :
    ∃ p ∈ s.items, Cmp.equiv p.1 x = true ∧ (s.call (.get x)).1 = .ok (.val p.2) ∧
      (s.call (.get x)).2.items = p :: s.items.filter (fun q => !Cmp.equiv q.1 x) := by
  cases hf : s.items.find? (fun p => Cmp.equiv p.1 x) with
  | none =>
    rw [List.find?_eq_none] at hf
    unfold Spec.has at hx; rw [List.any_eq_true] at hx
    obtain ⟨p, hp, he⟩ := hx
    exact absurd he (hf p hp)
  | some p =>
    exact ⟨p, List.mem_of_find?_eq_some hf, by simpa using List.find?_some hf, by simp [Spec.call, hf],
      by simp [Spec.call, hf]⟩

theorem access_get {f : L → Except Exn V} {n : Nat} (hn : 0 < n) {h : List L} {x : L} {c : Cache L V}
    {t : List (Event L V)} {s : Spec L V} (hi : MemoInv f n h c t s) (hx : hasLabel c x = true)
    (hfx : ∀ y, Cmp.equiv x y = true → returns f x = returns f y) :
    (∃ l ∈ h, Cmp.equiv l x = true ∧ ∃ v, f l = .ok v ∧ (call c (.get x)).1 = .ok (.val v)) ∧
      ∃ t s, MemoInv f n (x :: h) (call c (.get x)).2 t s := by
  have hr := call_refine hi.rep (.get x)
  have hh := hi.hist.call (by rw [hi.cap]; exact hn) (.get x)
  obtain ⟨p, hp, hpx, h1, h2⟩ := Spec.get_hit (by rw [← hi.rep.has_eq]; exact hx)
  have hret : returns f x = true := by
    rw [hfx p.1 (by rw [Cmp.equiv_comm]; exact hpx)]
    simp [returns, (hi.vals p hp).1]
  refine ⟨⟨p.1, (hi.vals p hp).2, hpx, p.2, (hi.vals p hp).1, by rw [hr.1, h1]⟩, _, _, hr.2, hh,
    by rw [spec_call_cap]; exact hi.cap, ?_, ?_⟩
  · have hu : usedLabel ((.get x, (s.call (.get x)).1) : Event L V) = some x := by rw [h1]; rfl
    rw [recency_use hi.recent hu]
    simp [hret, recentLabels]
  · intro q hq
    rw [h2] at hq
    rcases List.mem_cons.1 hq with rfl | hq
    · exact ⟨(hi.vals _ hp).1, List.mem_cons_of_mem _ (hi.vals _ hp).2⟩
    · have := hi.vals q (List.mem_filter.1 hq).1
      exact ⟨this.1, List.mem_cons_of_mem _ this.2⟩

theorem access_inv {f : L → Except Exn V} {n : Nat} (hn : 0 < n)
    (hf : ∀ x y, Cmp.equiv x y = true → returns f x = returns f y)
    {h : List L} {x : L} {c : Cache L V} {t : List (Event L V)} {s : Spec L V} (hi : MemoInv f n h c t s) :
    (∃ l ∈ x :: h, Cmp.equiv l x = true ∧
      (access f c x).1 = match f l with | .ok v => .ok (.val v) | .error e => .exn e) ∧
      ∃ t s, MemoInv f n (x :: h) (access f c x).2 t s := by
  unfold access
  cases hx : hasLabel c x with
  | true =>
    simp only [if_true]
    obtain ⟨⟨l, hl, hlx, v, hv, h1⟩, h2⟩ := access_get hn hi hx (hf x)
    exact ⟨⟨l, List.mem_cons_of_mem _ hl, hlx, by rw [h1, hv]⟩, h2⟩
  | false =>
    simp only [Bool.false_eq_true, if_false]
    cases hv : f x with
    | error e =>
      refine ⟨⟨x, by simp, by simp, by rw [hv]⟩, t, s, hi.rep, hi.hist, hi.cap, ?_, fun p hp => ?_⟩
      · rw [hi.recent]; simp [returns, hv]
      · exact ⟨(hi.vals p hp).1, List.mem_cons_of_mem _ (hi.vals p hp).2⟩
    | ok v =>
      have hs : s.has x = false := by rw [← hi.rep.has_eq]; exact hx
      have hr := call_refine hi.rep (.put x v)
      have hh := hi.hist.call (by rw [hi.cap]; exact hn) (.put x v)
      have e : s.call (.put x v) = (.ok .unit, { s with items := (x, v) :: s.items.take (s.cap - 1) }) := by
        simp [Spec.call, hs]
      rw [e] at hr hh
      have hret : returns f x = true := by simp [returns, hv]
      have hi' : MemoInv f n (x :: h) (call c (.put x v)).2 ((.put x v, .ok .unit) :: t)
          { s with items := (x, v) :: s.items.take (s.cap - 1) } := by
        refine ⟨hr.2, hh, hi.cap, ?_, ?_⟩
        · have hu : usedLabel ((.put x v, .ok .unit) : Event L V) = some x := rfl
          rw [recency_use hi.recent hu]
          simp [hret, recentLabels]
        · intro q hq
          rcases List.mem_cons.1 hq with rfl | hq
          · exact ⟨hv, by simp⟩
          · have := hi.vals q (List.mem_of_mem_take hq)
            exact ⟨this.1, List.mem_cons_of_mem _ this.2⟩
      have hx' : hasLabel (call c (.put x v)).2 x = true := by
        rw [hr.2.has_eq]; simp [Spec.has]
      obtain ⟨⟨l, hl, hlx, w, hw, h1⟩, t', s', h2⟩ := access_get hn hi' hx' (hf x)
      have hput : call c (.put x v) = (.ok .unit, (call c (.put x v)).2) := Prod.ext hr.1 rfl
      dsimp only
      generalize call c (.put x v) = g at hput h1 h2
      rw [hput]
      refine ⟨⟨l, hl, hlx, by rw [h1, hw]⟩, t', s', h2.rep, h2.hist, h2.cap, ?_, fun p hp => ?_⟩
      · rw [h2.recent]
        simp [hret, recentLabels, List.filter_filter]
      · have := h2.vals p hp
        refine ⟨this.1, ?_⟩
        simpa using this.2

theorem memo_inv {f : L → Except Exn V} {n : Nat} (hn : 0 < n)
    (hf : ∀ x y, Cmp.equiv x y = true → returns f x = returns f y) (h : List L) :
    ∃ t s, MemoInv f n h (memo f n h) t s := by
  induction h with
  | nil => exact ⟨[], ⟨n, []⟩, rep_empty hn, hist_nil n, rfl, by simp [recency, recentLabels], by simp⟩
  | cons x h ih =>
    obtain ⟨t, s, hi⟩ := ih
    exact (access_inv hn hf hi).2

theorem memo_has {f : L → Except Exn V} {n : Nat} (hn : 0 < n)
    (hf : ∀ x y, Cmp.equiv x y = true → returns f x = returns f y) (h : List L) (x : L) :
    hasLabel (memo f n h) x = occurs x ((recentLabels (h.filter (returns f))).take n) := by
  obtain ⟨t, s, hi⟩ := memo_inv hn hf h
  exact hi.has x

/-- C108: every access gives what `f` gives for an equivalent label that has been accessed (now or before); if `f` respects the
order's equivalence, what it gives for the label itself. -/
theorem C108_value {f : L → Except Exn V} {n : Nat} (hn : 0 < n)
    (hf : ∀ x y, Cmp.equiv x y = true → returns f x = returns f y) (h : List L) (x : L) :
    (∃ l ∈ x :: h, Cmp.equiv l x = true ∧
      (access f (memo f n h) x).1 = match f l with | .ok v => .ok (.val v) | .error e => .exn e) ∧
    ((∀ y, Cmp.equiv y x = true → f y = f x) →
      (access f (memo f n h) x).1 = match f x with | .ok v => .ok (.val v) | .error e => .exn e) := by
  obtain ⟨t, s, hi⟩ := memo_inv hn hf h
  obtain ⟨l, hl, hlx, h1⟩ := (access_inv (x := x) hn hf hi).1
  refine ⟨⟨l, hl, hlx, h1⟩, fun hc => ?_⟩
  rw [h1, hc l hlx]

theorem take_occurs {R : List L} (hR : Distinct R) (n : Nat) (x : L) :
    occurs x (R.take n) = true ↔ ∃ a y b, R = a ++ y :: b ∧ Cmp.equiv y x = true ∧ a.length < n := by
  rw [occurs_iff]
  constructor
  · rintro ⟨y, hy, hyx⟩
    obtain ⟨i, hi, rfl⟩ := List.getElem_of_mem hy
    rw [List.length_take] at hi
    refine ⟨R.take i, R[i]'(by omega), R.drop (i + 1), ?_, ?_, ?_⟩
    · rw [List.getElem_cons_drop]; simp
    · rw [List.getElem_take] at hyx; exact hyx
    · rw [List.length_take]; omega
  · rintro ⟨a, y, b, rfl, hyx, ha⟩
    refine ⟨y, ?_, hyx⟩
    rw [List.take_append]
    refine List.mem_append_right _ ?_
    obtain ⟨m, hm⟩ : ∃ m, n - a.length = m + 1 := ⟨n - a.length - 1, by omega⟩
    rw [hm]; simp

/-- The labels in front of `x` among the recent labels are those accessed since the last access of `x`. -/
theorem recentLabels_split (h : List L) (x : L) (hx : occurs x h = true) :
    ∃ a y b, h = a ++ y :: b ∧ Cmp.equiv y x = true ∧ occurs x a = false ∧
      ∃ z d, recentLabels h = recentLabels a ++ z :: d ∧ Cmp.equiv z x = true := by
  induction h with
  | nil => simp [occurs] at hx
  | cons k h ih =>
    by_cases hk : Cmp.equiv k x = true
    · exact ⟨[], k, h, rfl, hk, rfl, k, _, rfl, hk⟩
    · have hx' : occurs x h = true := by
        simp only [occurs, List.any_cons] at hx ⊢
        simpa [hk] using hx
      obtain ⟨a, y, b, h1, h2, h3, z, d, h4, h5⟩ := ih hx'
      refine ⟨k :: a, y, b, by rw [h1]; rfl, h2, by simp only [occurs, List.any_cons] at h3 ⊢; simp [hk, h3], z, ?_⟩
      refine ⟨d.filter (fun y => !Cmp.equiv y k), ?_, h5⟩
      have hzk : Cmp.equiv z k = false := by
        rw [Cmp.equiv_of_equiv_left h5, Cmp.equiv_comm]; simpa using hk
      simp [recentLabels, h4, hzk]

/-- The labels of a list, each once, are as many as the longest list of different labels from it. -/
theorem recentLabels_length (a : List L) (n : Nat) :
    (recentLabels a).length < n ↔ ∀ D, Distinct D → (∀ d ∈ D, d ∈ a) → D.length < n := by
  constructor
  · intro h D hD hDa
    refine Nat.lt_of_le_of_lt (hD.length_le (Q := recentLabels a) fun d hd => ?_) h
    rw [recentLabels_occurs, occurs_iff]
    exact ⟨d, hDa d hd, by simp⟩
  · intro h
    exact h _ (recentLabels_distinct a) fun d hd => recentLabels_mem hd

/-- C108: an access finds its label in the cache if and only if the label has been accessed before (with a value returned) and
fewer than `n` different labels have been since. -/
theorem C108_hit {f : L → Except Exn V} {n : Nat} (hn : 0 < n)
    (hf : ∀ x y, Cmp.equiv x y = true → returns f x = returns f y) (h : List L) (x : L) :
    hasLabel (memo f n h) x = true ↔
      ∃ a y b, h.filter (returns f) = a ++ y :: b ∧ Cmp.equiv y x = true ∧ (∀ z ∈ a, Cmp.equiv z x = false) ∧
        ∀ D, Distinct D → (∀ d ∈ D, d ∈ a) → D.length < n := by
  rw [memo_has hn hf]
  generalize h.filter (returns f) = g
  rw [take_occurs (recentLabels_distinct g)]
  constructor
  · rintro ⟨a, y, b, h1, h2, h3⟩
    have hx : occurs x g = true := by
      rw [← recentLabels_occurs, occurs_iff, h1]; exact ⟨y, by simp, h2⟩
    obtain ⟨a', y', b', g1, g2, g3, z, d, g4, g5⟩ := recentLabels_split g x hx
    refine ⟨a', y', b', g1, g2, by simpa [occurs] using g3, (recentLabels_length _ _).1 ?_⟩
    have hd := recentLabels_distinct g
    -- the two splittings of the recent labels are the same
    have : (recentLabels a').length ≤ a.length := by
      rcases Nat.lt_or_ge a.length (recentLabels a').length with hlt | hge
      · have e := h1.symm.trans g4
        have hy : y ∈ recentLabels a' := by
          have h7 : (a ++ y :: b)[a.length]? = some y := by simp
          rw [e, List.getElem?_append_left hlt] at h7
          exact List.mem_of_getElem? h7
        have := recentLabels_mem hy
        simp only [occurs, List.any_eq_false] at g3
        exact absurd h2 (g3 y this)
      · exact hge
    omega
  · rintro ⟨a, y, b, h1, h2, h3, h4⟩
    have hx : occurs x g = true := by rw [h1, occurs_iff]; exact ⟨y, by simp, h2⟩
    obtain ⟨a', y', b', g1, g2, g3, z, d, g4, g5⟩ := recentLabels_split g x hx
    refine ⟨recentLabels a', z, d, g4, g5, ?_⟩
    have haa : a' = a := by
      have hlen : a'.length = a.length := by
        have e := h1.symm.trans g1
        rcases Nat.lt_trichotomy a.length a'.length with hlt | heq | hgt
        · have h7 : (a ++ y :: b)[a.length]? = some y := by simp
          rw [e, List.getElem?_append_left hlt] at h7
          simp only [occurs, List.any_eq_false] at g3
          exact absurd h2 (g3 y (List.mem_of_getElem? h7))
        · exact heq.symm
        · have h7 : (a' ++ y' :: b')[a'.length]? = some y' := by simp
          rw [← e, List.getElem?_append_left hgt] at h7
          have := h3 y' (List.mem_of_getElem? h7)
          rw [g2] at this; simp at this
      exact (List.append_inj (g1.symm.trans h1) hlen).1
    rw [haa]; exact (recentLabels_length _ _).2 h4

/-- C108: a larger cache contains every label that a smaller one contains, and makes no more evaluations. -/
theorem C108_inclusion {f : L → Except Exn V} {n m : Nat} (hn : 0 < n) (hnm : n ≤ m)
    (hf : ∀ x y, Cmp.equiv x y = true → returns f x = returns f y) (h : List L) :
    (∀ x, hasLabel (memo f n h) x = true → hasLabel (memo f m h) x = true) ∧
    evaluations f m h ≤ evaluations f n h := by
  have key : ∀ h x, hasLabel (memo f n h) x = true → hasLabel (memo f m h) x = true := by
    intro h x
    rw [memo_has hn hf, memo_has (by omega) hf, occurs_iff, occurs_iff]
    rintro ⟨y, hy, hyx⟩
    exact ⟨y, List.take_subset_take_left _ hnm hy, hyx⟩
  refine ⟨key h, ?_⟩
  induction h with
  | nil => simp [evaluations]
  | cons x h ih =>
    have := key h x
    simp only [evaluations]
    cases hx : hasLabel (memo f n h) x with
    | true => rw [this hx]; simpa using ih
    | false =>
      simp only [Bool.false_eq_true, if_false]
      split <;> omega

/-- C108: as long as no more than `n` different labels are accessed, `f` is called at most once for every label: an access
finds its label if and only if `f` has returned a value for it before. -/
theorem C108_once {f : L → Except Exn V} {n : Nat} (hn : 0 < n)
    (hf : ∀ x y, Cmp.equiv x y = true → returns f x = returns f y) (h : List L)
    (hd : ∀ D, Distinct D → (∀ d ∈ D, d ∈ h) → D.length ≤ n) (x : L) :
    hasLabel (memo f n h) x = true ↔ ∃ y ∈ h, returns f y = true ∧ Cmp.equiv y x = true := by
  rw [memo_has hn hf, List.take_of_length_le, recentLabels_occurs, occurs_iff]
  · constructor
    · rintro ⟨y, hy, hyx⟩
      exact ⟨y, (List.mem_filter.1 hy).1, (List.mem_filter.1 hy).2, hyx⟩
    · rintro ⟨y, hy, hr, hyx⟩
      exact ⟨y, List.mem_filter.2 ⟨hy, hr⟩, hyx⟩
  · exact hd _ (recentLabels_distinct _) fun d hd => (List.mem_filter.1 (recentLabels_mem hd)).1

/-! ### Comparison with arbitrary strategies -/

/-- The potential: slots of the cache that are empty or hold a label that the store `S` does not, weighted `w`, `w-1`, …, 1 from
the most recently used. -/
def potential : Nat → List L → List L → Nat
  | 0, _, _ => 0
  | w + 1, [], S => w + 1 + potential w [] S
  | w + 1, r :: R, S => (if occurs r S then 0 else w + 1) + potential w R S

/-- The number of those slots. -/
def foreign : Nat → List L → List L → Nat
  | 0, _, _ => 0
  | w + 1, [], S => 1 + foreign w [] S
  | w + 1, r :: R, S => (if occurs r S then 0 else 1) + foreign w R S

theorem potential_nil (w : Nat) (S : List L) : 2 * potential w [] S = w * (w + 1) := by
  induction w with
  | zero => rfl
  | succ w ih =>
    simp only [potential, Nat.mul_add, ih, Nat.add_mul, Nat.mul_one, Nat.one_mul]
    omega

/-- Labels leaving the store raise the potential by at most the greatest weight each. -/
theorem potential_change (n : Nat) (S S' : List L) : ∀ (w : Nat) (R : List L), w ≤ n →
    potential w R S' ≤ potential w R S + n * (R.filter (fun r => occurs r S && !occurs r S')).length := by
  intro w
  induction w with
  | zero => intro R _; simp [potential]
  | succ w ih =>
    intro R hw
    cases R with
    | nil =>
      have := ih [] (by omega)
      simp only [potential] at this ⊢
      simp at this ⊢
      exact this
    | cons r R =>
      have := ih R (by omega)
      simp only [potential, List.filter_cons]
      cases h1 : occurs r S <;> cases h2 : occurs r S' <;>
        simp only [Bool.false_eq_true, if_false, if_true, Bool.not_true, Bool.not_false, Bool.and_true, Bool.and_false,
          List.length_cons, Nat.mul_add, Nat.mul_one] <;> omega

theorem potential_hit {S : List L} {x : L} : ∀ (w : Nat) (R : List L), Distinct R →
    potential w (R.filter (fun y => !Cmp.equiv y x)) S ≤ potential (w + 1) R S := by
  intro w
  induction w with
  | zero => intro R _; simp [potential]
  | succ w ih =>
    intro R hR
    cases R with
    | nil => simp [potential]
    | cons r R =>
      obtain ⟨h1, h2⟩ := List.pairwise_cons.1 hR
      by_cases hr : Cmp.equiv r x = true
      · have : R.filter (fun y => !Cmp.equiv y x) = R := by
          rw [List.filter_eq_self]
          intro y hy
          rw [Cmp.equiv_of_equiv_right (Cmp.equiv_symm hr), Cmp.equiv_comm, h1 y hy]; rfl
        simp only [List.filter_cons, hr, Bool.not_true, Bool.false_eq_true, if_false, this]
        conv => rhs; unfold potential
        exact Nat.le_add_left _ _
      · have := ih R h2
        simp only [List.filter_cons, hr, Bool.not_false, if_true]
        rw [potential, potential]
        split <;> omega

theorem potential_miss {S : List L} {x : L} : ∀ (w : Nat) (R : List L), occurs x (R.take (w + 1)) = false →
    potential w (R.filter (fun y => !Cmp.equiv y x)) S + foreign (w + 1) R S ≤ potential (w + 1) R S := by
  intro w
  induction w with
  | zero =>
    intro R _
    cases R with
    | nil => simp [potential, foreign]
    | cons r R => simp [potential, foreign]
  | succ w ih =>
    intro R hR
    cases R with
    | nil =>
      have := ih [] (by simp [occurs])
      simp only [List.filter_nil] at this ⊢
      rw [potential, foreign]
      rw [show potential (w + 1 + 1) ([] : List L) S = w + 1 + 1 + potential (w + 1) [] S from rfl]
      rw [show potential (w + 1) ([] : List L) S = w + 1 + potential w [] S from rfl] at this ⊢
      omega
    | cons r R =>
      have hr : Cmp.equiv r x = false := by
        cases h : Cmp.equiv r x
        · rfl
        · simp [occurs, h] at hR
      have := ih R (by simp only [List.take_succ_cons, occurs, List.any_cons, hr] at hR ⊢; simpa using hR)
      simp only [List.filter_cons, hr, Bool.not_false, if_true]
      rw [potential, foreign, show potential (w + 1 + 1) (r :: R) S =
        (if occurs r S then 0 else w + 1 + 1) + potential (w + 1) R S from rfl]
      split <;> omega

theorem foreign_count (S : List L) : ∀ (w : Nat) (R : List L),
    foreign w R S + ((R.take w).filter (fun r => occurs r S)).length = w := by
  intro w
  induction w with
  | zero => intro R; simp [foreign]
  | succ w ih =>
    intro R
    cases R with
    | nil => have := ih []; simp only [foreign] at this ⊢; simp at this ⊢; omega
    | cons r R =>
      have := ih R
      simp only [foreign, List.take_succ_cons, List.filter_cons]
      cases h : occurs r S <;> simp only [Bool.false_eq_true, if_false, if_true, List.length_cons] <;> omega

theorem foreign_ge {n k : Nat} {S R : List L} {x : L} (hS : S.length ≤ k) (hx : occurs x S = true)
    (hR : Distinct R) (hxR : occurs x (R.take n) = false) : n + 1 ≤ foreign n R S + k := by
  have h1 := foreign_count S n R
  have h2 : Distinct (x :: (R.take n).filter (fun r => occurs r S)) := by
    refine List.pairwise_cons.2 ⟨fun y hy => ?_, (hR.sublist (List.take_sublist _ _)).filter _⟩
    simp only [occurs, List.any_eq_false] at hxR
    rw [Cmp.equiv_comm]
    simpa using hxR y (List.mem_filter.1 hy).1
  have h3 := h2.length_le (Q := S) (fun p hp => by
    rcases List.mem_cons.1 hp with rfl | hp
    · exact hx
    · exact (List.mem_filter.1 hp).2)
  simp only [List.length_cons] at h3
  omega

theorem filter_split (S S' : List L) :
    (S.filter (fun y => occurs y S')).length + (S.filter (fun y => !occurs y S')).length = S.length := by
  induction S with
  | nil => rfl
  | cons x S ih =>
    simp only [List.filter_cons]
    cases occurs x S' <;> simp only [Bool.not_false, Bool.not_true, Bool.false_eq_true, if_true, if_false,
      List.length_cons] <;> omega

theorem common_le {S S' : List L} (hS : Distinct S) :
    (S.filter (fun y => occurs y S')).length ≤ (S'.filter (fun y => occurs y S)).length := by
  refine Distinct.length_le (hS.filter _) fun p hp => ?_
  obtain ⟨hp1, hp2⟩ := List.mem_filter.1 hp
  obtain ⟨q, hq, hqp⟩ := occurs_iff.1 hp2
  refine occurs_iff.2 ⟨q, List.mem_filter.2 ⟨hq, ?_⟩, hqp⟩
  rw [occurs_congr hqp]
  exact occurs_iff.2 ⟨p, hp1, by simp⟩

theorem serves_distinct {f : L → Except Exn V} {k : Nat} {h S : List L} {c : Nat} (hs : Serves f k h S c) : Distinct S := by
  cases hs with
  | nil => simp [Distinct]
  | step _ h _ _ _ => exact h
  | throws _ h _ _ => exact h

/-- A change of the store is paid for by its loads. -/
theorem potential_store {n : Nat} {R S S' : List L} (hR : Distinct R) (hS : Distinct S) (hd : Distinct S') :
    potential n R S' + n * S'.length ≤ potential n R S + n * S.length + n * (S'.filter (fun y => !occurs y S)).length := by
  have h1 := potential_change n S S' n R (Nat.le_refl _)
  -- labels of the cache that leave the store are at most all that leave it
  have h2 : (R.filter (fun r => occurs r S && !occurs r S')).length ≤ (S.filter (fun y => !occurs y S')).length := by
    refine Distinct.length_le (hR.filter _) fun p hp => ?_
    have hp2 := (List.mem_filter.1 hp).2
    simp only [Bool.and_eq_true, Bool.not_eq_true'] at hp2
    obtain ⟨q, hq, hqp⟩ := occurs_iff.1 hp2.1
    refine occurs_iff.2 ⟨q, List.mem_filter.2 ⟨hq, ?_⟩, hqp⟩
    rw [occurs_congr hqp, hp2.2]; rfl
  have h3 := filter_split S S'
  have h4 := filter_split S' S
  have h5 := common_le (S' := S') hS
  have h7 : n * (R.filter (fun r => occurs r S && !occurs r S')).length ≤
      n * (S.filter (fun y => !occurs y S')).length := Nat.mul_le_mul_left _ h2
  have h8 : n * (S.filter (fun y => !occurs y S')).length + n * S'.length ≤
      n * S.length + n * (S'.filter (fun y => !occurs y S)).length := by
    rw [← Nat.mul_add, ← Nat.mul_add]
    exact Nat.mul_le_mul_left _ (by have := common_le (S' := S) hd; omega)
  omega

theorem serves_potential {f : L → Except Exn V} {n k : Nat} (hk0 : 0 < k) (hk : k ≤ n)
    (hf : ∀ x y, Cmp.equiv x y = true → returns f x = returns f y)
    {h S : List L} {c : Nat} (hs : Serves f k h S c) :
    evaluations f n h * (n - k + 1) + potential n (recentLabels (h.filter (returns f))) S + n * S.length ≤
      n * c + potential n [] ([] : List L) := by
  induction hs with
  | nil => simp [evaluations, recentLabels]
  | @step h S c x S' hs hd hlen hret hx ih =>
    have hR := recentLabels_distinct (h.filter (returns f))
    have h1 := potential_store (n := n) hR (serves_distinct hs) hd
    have hfil : (x :: h).filter (returns f) = x :: h.filter (returns f) := by simp [hret]
    rw [hfil]
    have hhas := memo_has (f := f) (n := n) (by omega) hf h x
    generalize h.filter (returns f) = g at *
    have h6 : potential n (recentLabels (x :: g)) S' + (if hasLabel (memo f n h) x then 0 else n - k + 1) ≤
        potential n (recentLabels g) S' := by
      obtain ⟨m, rfl⟩ : ∃ m, n = m + 1 := ⟨n - 1, by omega⟩
      have e : potential (m + 1) (recentLabels (x :: g)) S' =
          potential m ((recentLabels g).filter (fun y => !Cmp.equiv y x)) S' := by
        show (if occurs x S' = true then 0 else m + 1) + _ = _
        rw [hx]; simp
      rw [e]
      cases hm : hasLabel (memo f (m + 1) h) x with
      | true => simpa using potential_hit m _ hR
      | false =>
        rw [hhas] at hm
        have a1 := potential_miss (S := S') m _ hm
        have a2 := foreign_ge hlen hx hR hm
        simp only [Bool.false_eq_true, if_false]
        omega
    simp only [evaluations]
    generalize n - k + 1 = d at ih h6 ⊢
    simp only [Nat.add_mul, Nat.mul_add]
    split at h6
    · rename_i hh; simp only [hh, if_true, Nat.zero_mul]; omega
    · rename_i hh; simp only [hh, if_false, Nat.one_mul, Bool.false_eq_true]; omega
  | @throws h S c x S' hs hd hlen hret ih =>
    have h1 := potential_store (n := n) (recentLabels_distinct (h.filter (returns f))) (serves_distinct hs) hd
    have hfil : (x :: h).filter (returns f) = h.filter (returns f) := by simp [hret]
    rw [hfil]
    simp only [evaluations]
    have hd : n - k + 1 ≤ n := by omega
    generalize n - k + 1 = d at ih hd ⊢
    simp only [Nat.add_mul, Nat.mul_add, Nat.mul_one]
    split
    · rw [Nat.zero_mul]; omega
    · rw [Nat.one_mul]; omega

/-- C108: the number of evaluations made with a cache of size `n` is, up to a constant, at most `n/(n-k+1)` times the number of
evaluations made by any strategy with a store of size `k ≤ n`, even one that knows all the accesses in advance. -/
theorem C108_competitive {f : L → Except Exn V} {n k : Nat} (hk0 : 0 < k) (hk : k ≤ n)
    (hf : ∀ x y, Cmp.equiv x y = true → returns f x = returns f y) {h S : List L} {c : Nat} (hs : Serves f k h S c) :
    evaluations f n h * (n - k + 1) ≤ n * c + n * (n + 1) / 2 := by
  have h1 := serves_potential hk0 hk hf hs
  have h2 := potential_nil n ([] : List L)
  omega

/-- C108, the bound for a store without places: then `f` is called at every access. -/
theorem C108_none {f : L → Except Exn V} {n : Nat} {h S : List L} {c : Nat} (hs : Serves f 0 h S c) :
    evaluations f n h ≤ c := by
  induction hs with
  | nil => simp [evaluations]
  | @step h S c x S' hs hd hlen hret hx ih =>
    obtain ⟨y, hy, _⟩ := occurs_iff.1 hx
    have := List.length_pos_of_mem hy
    omega
  | @throws h S c x S' hs hd hlen hret ih =>
    simp only [evaluations]
    split <;> omega

theorem take_filter_mem {x : L} : ∀ (m : Nat) (R : List L), Distinct R → ∀ y ∈ (R.filter (fun y => !Cmp.equiv y x)).take m,
    y ∈ R.take (m + 1) := by
  intro m R
  induction R generalizing m with
  | nil => simp
  | cons r R ih =>
    intro hR y hy
    obtain ⟨h1, h2⟩ := List.pairwise_cons.1 hR
    cases hr : Cmp.equiv r x with
    | true =>
      have hall : R.filter (fun y => !Cmp.equiv y x) = R := by
        refine List.filter_eq_self.2 fun a ha => ?_
        rw [← Cmp.equiv_of_equiv_right hr, Cmp.equiv_comm, h1 a ha]; rfl
      simp only [List.filter_cons, hr, Bool.not_true, Bool.false_eq_true, if_false, hall] at hy
      exact List.mem_cons_of_mem _ hy
    | false =>
      simp only [List.filter_cons, hr, Bool.not_false, if_true] at hy
      cases m with
      | zero => simp at hy
      | succ m =>
        rcases List.mem_cons.1 hy with rfl | hy
        · simp
        · exact List.mem_cons_of_mem _ (ih m h2 y hy)

theorem occurs_self {x : L} {S : List L} (h : x ∈ S) : occurs x S = true := occurs_iff.2 ⟨x, h, by simp⟩

/-- C108: the strategies against which the bound holds include the client of a cache of any size itself. -/
theorem C108_strategy {f : L → Except Exn V} {n : Nat} (hn : 0 < n)
    (hf : ∀ x y, Cmp.equiv x y = true → returns f x = returns f y) (h : List L) :
    ∃ S, (∀ x, occurs x S = hasLabel (memo f n h) x) ∧ Serves f n h S (evaluations f n h) := by
  refine ⟨_, fun x => (memo_has hn hf h x).symm, ?_⟩
  induction h with
  | nil => simpa [recentLabels, evaluations] using Serves.nil (f := f) (k := n)
  | cons x h ih =>
    have hhas := memo_has (f := f) (n := n) hn hf h x
    have hd : Distinct ((recentLabels ((x :: h).filter (returns f))).take n) :=
      (recentLabels_distinct _).sublist (List.take_sublist _ _)
    have hl : ((recentLabels ((x :: h).filter (returns f))).take n).length ≤ n := by
      rw [List.length_take]; exact Nat.min_le_left _ _
    obtain ⟨m, rfl⟩ : ∃ m, n = m + 1 := ⟨n - 1, by omega⟩
    cases hx : returns f x with
    | true =>
      have e : (recentLabels ((x :: h).filter (returns f))).take (m + 1) =
          x :: ((recentLabels (h.filter (returns f))).filter (fun y => !Cmp.equiv y x)).take m := by
        simp [hx, recentLabels]
      have h1 := Serves.step (x := x) ih hd hl hx (by rw [e]; exact occurs_self (by simp))
      have hc : ((((recentLabels ((x :: h).filter (returns f))).take (m + 1)).filter
          (fun y => !occurs y ((recentLabels (h.filter (returns f))).take (m + 1))))).length =
          if hasLabel (memo f (m + 1) h) x then 0 else 1 := by
        have h0 : (((recentLabels (h.filter (returns f))).filter (fun y => !Cmp.equiv y x)).take m).filter
            (fun y => !occurs y ((recentLabels (h.filter (returns f))).take (m + 1))) = [] := by
          refine List.filter_eq_nil_iff.2 fun y hy => ?_
          rw [occurs_self (take_filter_mem m _ (recentLabels_distinct _) y hy)]
          simp
        rw [e, List.filter_cons, h0, hhas]
        cases occurs x ((recentLabels (h.filter (returns f))).take (m + 1)) <;> simp
      rw [hc] at h1
      exact h1
    | false =>
      have e : (x :: h).filter (returns f) = h.filter (returns f) := by simp [hx]
      rw [e] at hd hl ⊢
      have h1 := Serves.throws (x := x) ih hd hl hx
      have hc : (((recentLabels (h.filter (returns f))).take (m + 1)).filter
          (fun y => !occurs y ((recentLabels (h.filter (returns f))).take (m + 1)))).length = 0 := by
        rw [List.length_eq_zero_iff]
        refine List.filter_eq_nil_iff.2 fun y hy => ?_
        rw [occurs_self hy]; simp
      rw [hc] at h1
      have hm : hasLabel (memo f (m + 1) h) x = false := by
        rw [hhas]
        apply Bool.eq_false_iff.2
        intro ho
        obtain ⟨y, hy, hyx⟩ := occurs_iff.1 ho
        have := (List.mem_filter.1 (recentLabels_mem (List.mem_of_mem_take hy))).2
        rw [hf y x hyx, hx] at this
        cases this
      simpa [evaluations, hm] using h1

/-- A client in the examples: squares, but the function throws for 7. -/
def squares (x : Nat) : Except Exn Nat := if x = 7 then .error .runtimeError else .ok (x * x)

/-- Accesses (newest first): capacity 2 keeps 3 and 5 and forgets 4. -/
def accesses : List Nat := [3, 7, 5, 3, 7, 4]

example : (access squares (memo squares 2 accesses) 4).1 = .ok (.val 16) ∧
    (access squares (memo squares 2 accesses) 7).1 = .exn .runtimeError ∧
    hasLabel (memo squares 2 accesses) 4 = false ∧ hasLabel (memo squares 2 accesses) 5 = true ∧
    hasLabel (memo squares 3 accesses) 4 = true ∧ evaluations squares 2 accesses = 5 ∧
    evaluations squares 2 (5 :: 4 :: accesses) = 7 ∧ evaluations squares 3 (5 :: 4 :: accesses) = 5 := by
  decide +kernel

/-- The premise on `f` holds for every function of labels whose equivalence is equality. -/
example : ∀ x y : Nat, Cmp.equiv x y = true → returns squares x = returns squares y := by
  intro x y h
  rw [Cmp.equiv_eq] at h
  rw [of_decide_eq_true h]

/-- With a weaker order an access can give the value of another, equivalent label. -/
example : (access (fun x : Tens => .ok x.n) (memo (fun x : Tens => .ok x.n) 2 [⟨31⟩]) ⟨38⟩).1 = .ok (.val 31) := by
  decide +kernel

/-- A strategy with a store of one label: three calls for four accesses, one of which throws; and the number of evaluations for a
cache of two labels. -/
example : Serves squares 1 [4, 7, 4, 3] [4] 3 ∧ evaluations squares 2 [4, 7, 4, 3] = 3 := by
  refine ⟨?_, by decide +kernel⟩
  have h0 : Serves squares 1 [] [] 0 := .nil
  have h1 : Serves squares 1 [3] [3] 1 := .step (x := 3) (S' := [3]) h0 (by simp [Distinct]) (by simp) (by decide) (by decide)
  have h2 : Serves squares 1 [4, 3] [4] 2 := .step (x := 4) (S' := [4]) h1 (by simp [Distinct]) (by simp) (by decide) (by decide)
  have h3 : Serves squares 1 [7, 4, 3] [4] 3 := .throws (x := 7) (S' := [4]) h2 (by simp [Distinct]) (by simp) (by decide)
  exact .step (x := 4) (S' := [4]) h3 (by simp [Distinct]) (by simp) (by decide) (by decide)

/-- Without room, a function that always throws is called as often by everyone. -/
example : Serves squares 0 [7, 7] [] 2 ∧ evaluations squares 2 [7, 7] = 2 := by
  refine ⟨?_, by decide +kernel⟩
  have h1 : Serves squares 0 [7] [] 1 := .throws (x := 7) (S' := []) .nil (by simp [Distinct]) (by simp) (by decide)
  exact .throws (x := 7) (S' := []) h1 (by simp [Distinct]) (by simp) (by decide)

end Helper.LRU
