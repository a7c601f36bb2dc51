import Verif.Shared.Model
/-!
# `SharedArray` in threads (array.hpp:223-247), property C118

Each thread has arrays of its own, which may share buffers with the arrays of other threads. The operations are split
into the accesses that other threads can notice: `++*_count` and `--*_count` on a plain `size_t` load the counter and
store the new value in two steps; `*_count==0` loads it; `delete` frees it. A schedule is the list of the threads that
take a step. (In C++ two threads that use the same counter without synchronisation have undefined behaviour; the model
gives it the meaning that memory accesses happen one after the other.) Counter and buffer have the same identity, since
both are copied together. Allocation does not fail, counters do not wrap around (see C33 for that), and arrays are not
destroyed (the destructor is undefined even in one thread, C34). A thread that uses an array or element that does not
exist stops.
-/
set_option linter.unusedSectionVars false
namespace Helper.Shared.Threads

variable {V : Type}

inductive Op (V : Type) where
  /-- lines 232-236 -/ | new (vs : List V)
  /-- line 237, copy construction from array `y` -/ | copy (y : Nat)
  /-- lines 238-239, `x = y` -/ | assign (x y : Nat)
  /-- line 241, `x[j] = v` -/ | write (x j : Nat) (v : V)
  /-- line 242, `x[j]` is read -/ | read (x j : Nat)

/-- Where a thread is within an operation. -/
inductive Phase where
  | idle
  /-- line 237: the value `k` of the counter has been loaded for `++*_count` -/ | copyStore (g k : Nat)
  /-- line 239: the value `k` of the counter has been loaded for `--*_count` -/ | decStore (x g g' k : Nat)
  /-- line 239: before `if(*_count==0)` -/ | test (x g g' : Nat)
  /-- line 239: before `delete _count; delete[] _ptr;` -/ | free (x g g' : Nat)
  /-- line 239: the members have been copied, before `++*_count` -/ | incLoad (g : Nat)
  /-- line 239: the value `k` of the counter has been loaded for `++*_count` -/ | incStore (g k : Nat)
  deriving DecidableEq

structure Thread (V : Type) where
  /-- the buffers of the arrays, in the order of construction -/
  vars : List Nat
  ops : List (Op V)
  phase : Phase
  /-- the values read -/
  out : List V
  failed : Bool

structure St (V : Type) where
  bufs : Nat → Option (List V)
  cnts : Nat → Option Nat
  next : Nat
  ts : List (Thread V)
  /-- memory that has been freed was used -/
  bad : Bool

def St.put (s : St V) (i : Nat) (t : Thread V) : St V := { s with ts := s.ts.set i t }

/-- The first step of an operation; `t'` is the thread without that operation. -/
def begin (s : St V) (i : Nat) (t t' : Thread V) : Op V → St V
  | .new vs =>
    { s with bufs := upd s.bufs s.next (some vs), cnts := upd s.cnts s.next (some 1), next := s.next + 1 }.put i
      { t' with vars := t.vars ++ [s.next] }
  | .copy y =>
    match t.vars[y]? with
    | none => s.put i { t with failed := true }
    | some g =>
      match s.cnts g with
      | none => { s with bad := true }
      | some k => s.put i { t' with phase := .copyStore g k }
  | .assign x y =>
    match t.vars[x]?, t.vars[y]? with
    | some g, some g' =>
      if g = g' then s.put i t'
      else
        match s.cnts g with
        | none => { s with bad := true }
        | some k => s.put i { t' with phase := .decStore x g g' k }
    | _, _ => s.put i { t with failed := true }
  | .write x j v =>
    match t.vars[x]? with
    | none => s.put i { t with failed := true }
    | some g =>
      match s.bufs g with
      | none => { s with bad := true }
      | some l =>
        if j < l.length then { s with bufs := upd s.bufs g (some (l.set j v)) }.put i t'
        else s.put i { t with failed := true }
  | .read x j =>
    match t.vars[x]? with
    | none => s.put i { t with failed := true }
    | some g =>
      match s.bufs g with
      | none => { s with bad := true }
      | some l =>
        match l[j]? with
        | none => s.put i { t with failed := true }
        | some v => s.put i { t' with out := t.out ++ [v] }

/-- A step within an operation. -/
def proceed (s : St V) (i : Nat) (t : Thread V) : Phase → St V
  | .idle => s
  | .copyStore g k =>
    match s.cnts g with
    | none => { s with bad := true }
    | some _ =>
      { s with cnts := upd s.cnts g (some (k + 1)) }.put i { t with vars := t.vars ++ [g], phase := .idle }
  | .decStore x g g' k =>
    match s.cnts g with
    | none => { s with bad := true }
    | some _ => { s with cnts := upd s.cnts g (some (k - 1)) }.put i { t with phase := .test x g g' }
  | .test x g g' =>
    match s.cnts g with
    | none => { s with bad := true }
    | some 0 => s.put i { t with phase := .free x g g' }
    | some (_ + 1) => s.put i { t with vars := t.vars.set x g', phase := .incLoad g' }
  | .free x g g' =>
    match s.cnts g, s.bufs g with
    | some _, some _ =>
      { s with cnts := upd s.cnts g none, bufs := upd s.bufs g none }.put i
        { t with vars := t.vars.set x g', phase := .incLoad g' }
    | _, _ => { s with bad := true }
  | .incLoad g =>
    match s.cnts g with
    | none => { s with bad := true }
    | some k => s.put i { t with phase := .incStore g k }
  | .incStore g k =>
    match s.cnts g with
    | none => { s with bad := true }
    | some _ => { s with cnts := upd s.cnts g (some (k + 1)) }.put i { t with phase := .idle }

/-- One step of thread `i`. -/
def step (i : Nat) (s : St V) : St V :=
  match s.ts[i]? with
  | none => s
  | some t =>
    if t.failed then s
    else if t.phase = .idle then
      match t.ops with
      | [] => s
      | op :: ops => begin s i t { t with ops := ops } op
    else proceed s i t t.phase

def run : List Nat → St V → St V
  | [], s => s
  | i :: is, s => run is (step i s)

/-! ## What is claimed -/

/-- The number of arrays with buffer `g`, over all threads. -/
def owners (g : Nat) (s : St V) : Nat := (s.ts.map fun t => t.vars.count g).sum

/-- The counter that the thread is in the middle of using. -/
def Phase.busy : Phase → Option Nat
  | .idle => none
  | .copyStore g _ | .decStore _ g _ _ | .test _ g _ | .free _ g _ | .incLoad g | .incStore g _ => some g

/-- No two threads are using the same counter. -/
def Excl (s : St V) : Prop :=
  ∀ (i j : Nat) (t u : Thread V) (g : Nat), s.ts[i]? = some t → s.ts[j]? = some u →
    t.phase.busy = some g → u.phase.busy = some g → i = j

/-- The state before each step of the schedule has the property. -/
def Along (P : St V → Prop) : List Nat → St V → Prop
  | [], _ => True
  | i :: is, s => P s ∧ Along P is (step i s)

/-- Threads at their beginning: each array has a buffer, each counter is the number of its arrays, and everything else
is free. -/
structure Start (s : St V) : Prop where
  cnt : ∀ g, 0 < owners g s → s.cnts g = some (owners g s) ∧ (s.bufs g).isSome
  dead : ∀ g, owners g s = 0 → s.cnts g = none ∧ s.bufs g = none
  fresh : ∀ g, s.next ≤ g → owners g s = 0
  idle : ∀ t ∈ s.ts, t.phase = .idle
  good : s.bad = false

/-! ## The invariant -/

/-- The arrays of the thread that the counter of `g` does not count. -/
def deficit (g : Nat) (t : Thread V) : Nat :=
  match t.phase with
  | .test _ n _ | .free _ n _ | .incLoad n | .incStore n _ => if n = g then 1 else 0
  | _ => 0

def total (f : Thread V → Nat) (ts : List (Thread V)) : Nat := (ts.map f).sum

def cnt (g : Nat) (t : Thread V) : Nat := t.vars.count g

theorem owners_eq (g : Nat) (s : St V) : owners g s = total (cnt g) s.ts := rfl

/-- The values that a thread has loaded are still in memory, and its arrays are as when it loaded them. -/
def TOk (cnts : Nat → Option Nat) (t : Thread V) : Prop :=
  match t.phase with
  | .idle => True
  | .copyStore g k => g ∈ t.vars ∧ cnts g = some k
  | .decStore x g g' k => t.vars[x]? = some g ∧ g' ∈ t.vars ∧ g ≠ g' ∧ cnts g = some k
  | .test x g g' => t.vars[x]? = some g ∧ g' ∈ t.vars ∧ g ≠ g'
  | .free x g g' => t.vars[x]? = some g ∧ g' ∈ t.vars ∧ g ≠ g' ∧ cnts g = some 0
  | .incLoad g => g ∈ t.vars
  | .incStore g k => g ∈ t.vars ∧ cnts g = some k

structure Inv (s : St V) : Prop where
  cnt : ∀ g, 0 < total (cnt g) s.ts →
    ∃ c, s.cnts g = some c ∧ c + total (deficit g) s.ts = total (cnt g) s.ts ∧ (s.bufs g).isSome
  dead : ∀ g, total (Threads.cnt g) s.ts = 0 → s.cnts g = none ∧ s.bufs g = none
  fresh : ∀ g, s.next ≤ g → total (Threads.cnt g) s.ts = 0
  ok : ∀ (i : Nat) t, s.ts[i]? = some t → TOk s.cnts t
  good : s.bad = false

theorem total_set (f : Thread V → Nat) {ts : List (Thread V)} {i : Nat} {t : Thread V} (h : ts[i]? = some t)
    (t' : Thread V) : total f (ts.set i t') + f t = total f ts + f t' := by
  induction ts generalizing i with
  | nil => simp at h
  | cons a r ih =>
    cases i with
    | zero => simp at h; subst h; simp [total]; omega
    | succ i =>
      simp only [List.getElem?_cons_succ] at h
      have := ih h
      simp only [total, List.set_cons_succ, List.map_cons, List.sum_cons] at *
      omega

theorem le_total (f : Thread V → Nat) {ts : List (Thread V)} {i : Nat} {t : Thread V} (h : ts[i]? = some t) :
    f t ≤ total f ts := by
  have := total_set f h t
  have h2 : ts.set i t = ts := by
    obtain ⟨hi, rfl⟩ := List.getElem?_eq_some_iff.mp h
    exact List.set_getElem_self hi
  induction ts generalizing i with
  | nil => simp at h
  | cons a r ih =>
    cases i with
    | zero => simp at h; subst h; simp [total]
    | succ i =>
      simp only [List.getElem?_cons_succ] at h
      have := ih h (total_set f h t) (by
        obtain ⟨hi, rfl⟩ := List.getElem?_eq_some_iff.mp h
        exact List.set_getElem_self hi)
      simp only [total, List.map_cons, List.sum_cons] at *
      omega

theorem total_eq_zero (f : Thread V → Nat) {ts : List (Thread V)}
    (h : ∀ (j : Nat) (u : Thread V), ts[j]? = some u → f u = 0) : total f ts = 0 := by
  induction ts with
  | nil => rfl
  | cons a r ih =>
    have h1 := h 0 a rfl
    have h2 := ih fun j u hj => h (j + 1) u (by simpa using hj)
    simp only [total, List.map_cons, List.sum_cons] at *
    omega

theorem total_only (f : Thread V → Nat) {ts : List (Thread V)} {i : Nat} {t : Thread V} (h : ts[i]? = some t)
    (ho : ∀ (j : Nat) (u : Thread V), j ≠ i → ts[j]? = some u → f u = 0) : total f ts = f t := by
  induction ts generalizing i with
  | nil => simp at h
  | cons a r ih =>
    cases i with
    | zero =>
      simp at h; subst h
      have := total_eq_zero f (ts := r) fun j u hj => ho (j + 1) u (by omega) (by simpa using hj)
      simp only [total, List.map_cons, List.sum_cons] at *
      omega
    | succ i =>
      simp only [List.getElem?_cons_succ] at h
      have h1 := ho 0 a (by omega) rfl
      have h2 := ih h fun j u hj hu => ho (j + 1) u (by omega) (by simpa using hu)
      simp only [total, List.map_cons, List.sum_cons] at *
      omega

theorem get_set {ts : List (Thread V)} {i : Nat} {t t' : Thread V} (h : ts[i]? = some t) {j : Nat} {u : Thread V}
    (hj : (ts.set i t')[j]? = some u) : (j = i ∧ u = t') ∨ (j ≠ i ∧ ts[j]? = some u) := by
  rw [List.getElem?_set] at hj
  by_cases hij : i = j
  · subst hij
    obtain ⟨hlt, _⟩ := List.getElem?_eq_some_iff.mp h
    simp [hlt] at hj
    exact .inl ⟨rfl, hj.symm⟩
  · rw [if_neg hij] at hj
    exact .inr ⟨fun h => hij h.symm, hj⟩

theorem deficit_le_busy {g : Nat} {t : Thread V} (h : t.phase.busy ≠ some g) : deficit g t = 0 := by
  unfold deficit
  unfold Phase.busy at h
  split <;> simp_all

/-- Others keep what they have loaded if the counter that changes is not theirs. -/
theorem TOk.upd {cnts : Nat → Option Nat} {u : Thread V} {g : Nat} {c : Option Nat} (h : TOk cnts u)
    (hb : u.phase.busy ≠ some g) : TOk (upd cnts g c) u := by
  unfold TOk at h ⊢
  unfold Phase.busy at hb
  split <;> simp_all [Shared.upd] <;>
    (intro he; subst he; simp_all)

theorem TOk.busy_mem {cnts : Nat → Option Nat} {u : Thread V} {g : Nat} (h : TOk cnts u)
    (hb : u.phase.busy = some g) : g ∈ u.vars := by
  unfold TOk at h
  unfold Phase.busy at hb
  split at h <;> simp_all <;> exact List.mem_of_getElem? h.1

theorem Inv.owned {s : St V} (_ : Inv s) {i : Nat} {t : Thread V} (hi : s.ts[i]? = some t) {g : Nat}
    (hg : g ∈ t.vars) : 0 < total (Threads.cnt g) s.ts := by
  have h1 := le_total (Threads.cnt g) hi
  have h2 : 0 < Threads.cnt g t := List.count_pos_iff.mpr hg
  omega

/-- A step that changes only the phase, keeping the deficit. -/
theorem Inv.quiet {s : St V} (h : Inv s) {i : Nat} {t t' : Thread V} (hi : s.ts[i]? = some t)
    {bufs : Nat → Option (List V)} (hb : ∀ g, (bufs g).isSome = (s.bufs g).isSome)
    (hv : t'.vars = t.vars) (hd : ∀ g, deficit g t' = deficit g t) (hok : TOk s.cnts t') :
    Inv ({ s with bufs := bufs }.put i t') := by
  have hc : ∀ g, total (Threads.cnt g) (s.ts.set i t') = total (Threads.cnt g) s.ts := by
    intro g
    have := total_set (Threads.cnt g) hi t'
    have : Threads.cnt g t' = Threads.cnt g t := by simp [Threads.cnt, hv]
    omega
  have hD : ∀ g, total (deficit g) (s.ts.set i t') = total (deficit g) s.ts := by
    intro g
    have := total_set (deficit g) hi t'
    have := hd g
    omega
  refine ⟨?_, ?_, ?_, ?_, h.good⟩
  · intro g hg
    simp only [St.put, hc, hD, hb] at hg ⊢
    exact h.cnt g hg
  · intro g hg
    simp only [St.put, hc] at hg ⊢
    obtain ⟨h1, h2⟩ := h.dead g hg
    refine ⟨h1, ?_⟩
    have := hb g
    rw [h2] at this
    simpa using this
  · intro g hg
    simp only [St.put, hc] at hg ⊢
    exact h.fresh g hg
  · intro j u hj
    rcases get_set hi hj with ⟨_, rfl⟩ | ⟨_, hj⟩
    · exact hok
    · exact h.ok j u hj

/-- A step that stores a counter. -/
theorem Inv.store {s : St V} (h : Inv s) (he : Excl s) {i : Nat} {t t' : Thread V} (hi : s.ts[i]? = some t) {g c : Nat}
    (hbusy : t.phase.busy = some g)
    (hv : ∀ a, a ≠ g → Threads.cnt a t' = Threads.cnt a t) (hd : ∀ a, a ≠ g → deficit a t' = deficit a t)
    (hg : 0 < total (Threads.cnt g) s.ts) (hg' : 0 < Threads.cnt g t')
    (hc : c + total (deficit g) (s.ts.set i t') = total (Threads.cnt g) (s.ts.set i t'))
    (hok : TOk (upd s.cnts g (some c)) t') : Inv ({ s with cnts := upd s.cnts g (some c) }.put i t') := by
  have hc' : ∀ a, a ≠ g → total (Threads.cnt a) (s.ts.set i t') = total (Threads.cnt a) s.ts := by
    intro a ha
    have := total_set (Threads.cnt a) hi t'
    have := hv a ha
    omega
  have hD : ∀ a, a ≠ g → total (deficit a) (s.ts.set i t') = total (deficit a) s.ts := by
    intro a ha
    have := total_set (deficit a) hi t'
    have := hd a ha
    omega
  have hpos : 0 < total (Threads.cnt g) (s.ts.set i t') := by
    have := le_total (Threads.cnt g) (ts := s.ts.set i t') (i := i) (t := t') (by
      obtain ⟨hlt, _⟩ := List.getElem?_eq_some_iff.mp hi
      simp [hlt])
    omega
  refine ⟨?_, ?_, ?_, ?_, h.good⟩
  · intro a ha
    simp only [St.put] at ha ⊢
    by_cases hag : a = g
    · subst hag
      obtain ⟨_, _, _, hb⟩ := h.cnt a hg
      exact ⟨c, by simp [upd], hc, hb⟩
    · rw [hc' a hag] at ha ⊢
      rw [hD a hag]
      obtain ⟨c1, h1, h2, h3⟩ := h.cnt a ha
      exact ⟨c1, by simp [upd, hag, h1], h2, h3⟩
  · intro a ha
    simp only [St.put] at ha ⊢
    have hag : a ≠ g := by intro h; subst h; omega
    rw [hc' a hag] at ha
    obtain ⟨h1, h2⟩ := h.dead a ha
    exact ⟨by simp [upd, hag, h1], h2⟩
  · intro a ha
    simp only [St.put] at ha ⊢
    have := h.fresh a ha
    have hag : a ≠ g := by intro h; subst h; omega
    rw [hc' a hag]; exact this
  · intro j u hj
    rcases get_set hi hj with ⟨_, rfl⟩ | ⟨hji, hj⟩
    · exact hok
    · refine (h.ok j u hj).upd ?_
      intro hb
      exact hji (he j i u t g hj hi hb hbusy)

/-- Array `x` gets the buffer `b` instead of `a`. -/
theorem count_set {l : List Nat} {x a b : Nat} (h : l[x]? = some a) (hab : a ≠ b) (g : Nat) :
    (l.set x b).count g + (if a = g then 1 else 0) = l.count g + (if b = g then 1 else 0) := by
  induction l generalizing x with
  | nil => simp at h
  | cons c r ih =>
    cases x with
    | zero =>
      simp at h; subst h
      simp only [List.set_cons_zero, List.count_cons, beq_iff_eq]
      omega
    | succ x =>
      simp only [List.getElem?_cons_succ] at h
      have := ih h
      simp only [List.set_cons_succ, List.count_cons, beq_iff_eq]
      omega

theorem Inv.begin {s : St V} (h : Inv s) {i : Nat} {t : Thread V} (hi : s.ts[i]? = some t) (hp : t.phase = .idle)
    (ops : List (Op V)) (op : Op V) : Inv (begin s i t { t with ops := ops } op) := by
  have h0 : ∀ g, deficit g t = 0 := fun g => by simp [deficit, hp]
  have hfail : Inv (s.put i { t with failed := true }) :=
    h.quiet hi (bufs := s.bufs) (fun _ => rfl) rfl (fun g => by simp [deficit]) (by simp [TOk, hp])
  cases op with
  | new vs =>
    have hn := h.fresh s.next (Nat.le_refl _)
    have hct : ∀ g, total (Threads.cnt g) (s.ts.set i { t with ops := ops, vars := t.vars ++ [s.next] }) =
        total (Threads.cnt g) s.ts + (if s.next = g then 1 else 0) := by
      intro g
      have := total_set (Threads.cnt g) hi { t with ops := ops, vars := t.vars ++ [s.next] }
      have h2 : Threads.cnt g { t with ops := ops, vars := t.vars ++ [s.next] } =
          Threads.cnt g t + (if s.next = g then 1 else 0) := by
        simp [Threads.cnt, List.count_append, List.count_cons]
      omega
    have hdt : ∀ g, total (deficit g) (s.ts.set i { t with ops := ops, vars := t.vars ++ [s.next] }) =
        total (deficit g) s.ts := by
      intro g
      have := total_set (deficit g) hi { t with ops := ops, vars := t.vars ++ [s.next] }
      have h2 : deficit g { t with ops := ops, vars := t.vars ++ [s.next] } = deficit g t := by simp [deficit]
      omega
    have hnd : total (deficit s.next) s.ts = 0 := by
      refine total_eq_zero _ fun j u hj => deficit_le_busy fun hb => ?_
      have := h.owned hj ((h.ok j u hj).busy_mem hb)
      omega
    refine ⟨?_, ?_, ?_, ?_, h.good⟩
    · intro g hg
      simp only [Threads.begin, St.put] at hg ⊢
      rw [hct] at hg ⊢
      rw [hdt]
      by_cases hgn : s.next = g
      · subst hgn
        exact ⟨1, by simp [upd], by simp [hn, hnd], by simp [upd]⟩
      · have hgn' : g ≠ s.next := fun h => hgn h.symm
        simp only [hgn, if_false, Nat.add_zero] at hg ⊢
        simpa [upd, hgn'] using h.cnt g hg
    · intro g hg
      simp only [Threads.begin, St.put] at hg ⊢
      rw [hct] at hg
      by_cases hgn : s.next = g
      · simp [hgn] at hg
      · have hgn' : g ≠ s.next := fun h => hgn h.symm
        simpa [upd, hgn'] using h.dead g (by omega)
    · intro g hg
      simp only [Threads.begin, St.put] at hg ⊢
      rw [hct, if_neg (by omega)]
      exact h.fresh g (by omega)
    · intro j u hj
      rcases get_set hi hj with ⟨_, rfl⟩ | ⟨hji, hj⟩
      · simp [TOk, hp]
      · refine (h.ok j u hj).upd fun hb => ?_
        have := h.owned hj ((h.ok j u hj).busy_mem hb)
        omega
  | copy y =>
    simp only [Threads.begin]
    split
    · exact hfail
    · rename_i g hg
      have hm := List.mem_of_getElem? hg
      obtain ⟨c, hc, _, _⟩ := h.cnt g (h.owned hi hm)
      simp only [hc]
      exact h.quiet hi (bufs := s.bufs) (fun _ => rfl) rfl (fun g => by rw [h0]; simp [deficit]) (by simp [TOk, hm, hc])
  | assign x y =>
    simp only [Threads.begin]
    split
    · rename_i g g' hx hy
      have hm := List.mem_of_getElem? hx
      have hm' := List.mem_of_getElem? hy
      split
      · exact h.quiet hi (bufs := s.bufs) (fun _ => rfl) rfl (fun g => by simp [deficit]) (by simp [TOk, hp])
      · rename_i hne
        obtain ⟨c, hc, _, _⟩ := h.cnt g (h.owned hi hm)
        simp only [hc]
        exact h.quiet hi (bufs := s.bufs) (fun _ => rfl) rfl (fun g => by rw [h0]; simp [deficit])
          (by simp [TOk, hm', hx, hc, hne])
    · exact hfail
  | write x j v =>
    simp only [Threads.begin]
    split
    · exact hfail
    · rename_i g hg
      obtain ⟨c, _, _, hb⟩ := h.cnt g (h.owned hi (List.mem_of_getElem? hg))
      obtain ⟨l, hl⟩ := Option.isSome_iff_exists.mp hb
      simp only [hl]
      split
      · refine h.quiet hi ?_ rfl (fun g => by simp [deficit]) (by simp [TOk, hp])
        intro a
        by_cases ha : a = g
        · subst ha; simp [upd, hl]
        · simp [upd, ha]
      · exact hfail
  | read x j =>
    simp only [Threads.begin]
    split
    · exact hfail
    · rename_i g hg
      obtain ⟨c, _, _, hb⟩ := h.cnt g (h.owned hi (List.mem_of_getElem? hg))
      obtain ⟨l, hl⟩ := Option.isSome_iff_exists.mp hb
      simp only [hl]
      split
      · exact hfail
      · exact h.quiet hi (bufs := s.bufs) (fun _ => rfl) rfl (fun g => by simp [deficit]) (by simp [TOk, hp])

theorem Inv.proceed {s : St V} (h : Inv s) (he : Excl s) {i : Nat} {t : Thread V} (hi : s.ts[i]? = some t) :
    Inv (proceed s i t t.phase) := by
  have hok := h.ok i t hi
  have hothers : ∀ g, t.phase.busy = some g → ∀ (j : Nat) (u : Thread V), j ≠ i → s.ts[j]? = some u →
      u.phase.busy ≠ some g := by
    intro g hg j u hji hj hb
    exact hji (he j i u t g hj hi hb hg)
  have hself : ∀ g, t.phase.busy = some g → total (deficit g) s.ts = deficit g t := by
    intro g hg
    exact total_only _ hi fun j u hji hj => deficit_le_busy (hothers g hg j u hji hj)
  cases hp : t.phase with
  | idle => exact h
  | copyStore g k =>
    simp only [TOk, hp] at hok
    have hown := h.owned hi hok.1
    obtain ⟨c, hc, hsum, _⟩ := h.cnt g hown
    have hk : c = k := by rw [hok.2] at hc; exact (Option.some.inj hc).symm
    subst hk
    have hD := total_set (deficit g) hi { t with vars := t.vars ++ [g], phase := .idle }
    have hC := total_set (Threads.cnt g) hi { t with vars := t.vars ++ [g], phase := .idle }
    have e1 : deficit g { t with vars := t.vars ++ [g], phase := .idle } = 0 := rfl
    have e2 : deficit g t = 0 := by simp [deficit, hp]
    have e3 : Threads.cnt g { t with vars := t.vars ++ [g], phase := .idle } = Threads.cnt g t + 1 := by
      simp [Threads.cnt, List.count_append]
    simp only [Threads.proceed, hc]
    refine h.store he hi (by simp [hp, Phase.busy]) ?_ ?_ hown (by omega) (by omega) trivial
    · intro a ha
      have : g ≠ a := fun h => ha h.symm
      simp [Threads.cnt, List.count_append, this]
    · intro a _; simp [deficit, hp]
  | decStore x g g' k =>
    simp only [TOk, hp] at hok
    obtain ⟨hx, hy, hne, hk⟩ := hok
    have hm := List.mem_of_getElem? hx
    have hown := h.owned hi hm
    obtain ⟨c, hc, hsum, _⟩ := h.cnt g hown
    have hk' : c = k := by rw [hk] at hc; exact (Option.some.inj hc).symm
    subst hk'
    have hD := total_set (deficit g) hi { t with phase := .test x g g' }
    have hC := total_set (Threads.cnt g) hi { t with phase := .test x g g' }
    have e1 : deficit g { t with phase := .test x g g' } = 1 := by simp [deficit]
    have e2 : deficit g t = 0 := by simp [deficit, hp]
    have e3 : Threads.cnt g { t with phase := .test x g g' } = Threads.cnt g t := rfl
    have e4 := hself g (by simp [hp, Phase.busy])
    have e5 : 0 < Threads.cnt g t := List.count_pos_iff.mpr hm
    simp only [Threads.proceed, hc]
    refine h.store he hi (by simp [hp, Phase.busy]) ?_ ?_ hown (by omega) (by omega) ?_
    · intro a _; rfl
    · intro a ha
      have : g ≠ a := fun h => ha h.symm
      simp [deficit, hp, this]
    · simp [TOk, hx, hy, hne]
  | test x g g' =>
    simp only [TOk, hp] at hok
    obtain ⟨hx, hy, hne⟩ := hok
    have hm := List.mem_of_getElem? hx
    have hown := h.owned hi hm
    obtain ⟨c, hc, hsum, _⟩ := h.cnt g hown
    cases c with
    | zero =>
      simp only [Threads.proceed, hc]
      exact h.quiet hi (bufs := s.bufs) (fun _ => rfl) rfl (fun a => by simp [deficit, hp])
        (by simp [TOk, hx, hy, hne, hc])
    | succ c =>
      simp only [Threads.proceed, hc]
      have hct : ∀ a, total (Threads.cnt a) (s.ts.set i { t with vars := t.vars.set x g', phase := .incLoad g' }) +
          (if g = a then 1 else 0) = total (Threads.cnt a) s.ts + (if g' = a then 1 else 0) := by
        intro a
        have h1 := total_set (Threads.cnt a) hi { t with vars := t.vars.set x g', phase := .incLoad g' }
        have h2 : Threads.cnt a { t with vars := t.vars.set x g', phase := .incLoad g' } + (if g = a then 1 else 0) =
          Threads.cnt a t + (if g' = a then 1 else 0) := count_set hx hne a
        omega
      have hdt : ∀ a, total (deficit a) (s.ts.set i { t with vars := t.vars.set x g', phase := .incLoad g' }) +
          (if g = a then 1 else 0) = total (deficit a) s.ts + (if g' = a then 1 else 0) := by
        intro a
        have h1 := total_set (deficit a) hi { t with vars := t.vars.set x g', phase := .incLoad g' }
        have h2 : deficit a { t with vars := t.vars.set x g', phase := .incLoad g' } = (if g' = a then 1 else 0) := rfl
        have h3 : deficit a t = (if g = a then 1 else 0) := by simp [deficit, hp]
        omega
      have hown' := h.owned hi hy
      refine ⟨?_, ?_, ?_, ?_, h.good⟩
      · intro a ha
        simp only [St.put] at ha ⊢
        have h1 := hct a
        have h2 := hdt a
        by_cases hag : g = a
        · subst hag
          obtain ⟨c1, h3, h4, h5⟩ := h.cnt g hown
          exact ⟨c1, h3, by omega, h5⟩
        · obtain ⟨c1, h3, h4, h5⟩ := h.cnt a (by
            by_cases hag' : g' = a
            · subst hag'; exact hown'
            · rw [if_neg hag, if_neg hag'] at h1; omega)
          exact ⟨c1, h3, by omega, h5⟩
      · intro a ha
        simp only [St.put] at ha ⊢
        have h1 := hct a
        by_cases hag : g = a
        · subst hag
          rw [if_pos rfl, if_neg (fun h => hne h.symm)] at h1
          have h2 := hself g (by simp [hp, Phase.busy])
          have h3 : deficit g t = 1 := by simp [deficit, hp]
          exact absurd hsum (by omega)
        · exact h.dead a (by rw [if_neg hag] at h1; omega)
      · intro a ha
        simp only [St.put] at ha ⊢
        have h1 := hct a
        have h2 := h.fresh a ha
        by_cases hag' : g' = a
        · subst hag'; exact absurd h2 (by omega)
        · rw [if_neg hag'] at h1; omega
      · intro j u hj
        rcases get_set hi hj with ⟨_, rfl⟩ | ⟨hji, hj⟩
        · have hlt := (List.getElem?_eq_some_iff.mp hx).1
          simpa [TOk] using List.mem_set hlt g'
        · exact h.ok j u hj
  | free x g g' =>
    simp only [TOk, hp] at hok
    obtain ⟨hx, hy, hne, hz⟩ := hok
    have hm := List.mem_of_getElem? hx
    have hown := h.owned hi hm
    obtain ⟨c, hc, hsum, hb⟩ := h.cnt g hown
    obtain ⟨l, hl⟩ := Option.isSome_iff_exists.mp hb
    have hc0 : c = 0 := by rw [hz] at hc; exact (Option.some.inj hc).symm
    have e4 := hself g (by simp [hp, Phase.busy])
    have e5 : deficit g t = 1 := by simp [deficit, hp]
    simp only [Threads.proceed, hc, hl]
    have hct : ∀ a, total (Threads.cnt a) (s.ts.set i { t with vars := t.vars.set x g', phase := .incLoad g' }) +
        (if g = a then 1 else 0) = total (Threads.cnt a) s.ts + (if g' = a then 1 else 0) := by
      intro a
      have h1 := total_set (Threads.cnt a) hi { t with vars := t.vars.set x g', phase := .incLoad g' }
      have h2 : Threads.cnt a { t with vars := t.vars.set x g', phase := .incLoad g' } + (if g = a then 1 else 0) =
        Threads.cnt a t + (if g' = a then 1 else 0) := count_set hx hne a
      omega
    have hdt : ∀ a, total (deficit a) (s.ts.set i { t with vars := t.vars.set x g', phase := .incLoad g' }) +
        (if g = a then 1 else 0) = total (deficit a) s.ts + (if g' = a then 1 else 0) := by
      intro a
      have h1 := total_set (deficit a) hi { t with vars := t.vars.set x g', phase := .incLoad g' }
      have h2 : deficit a { t with vars := t.vars.set x g', phase := .incLoad g' } = (if g' = a then 1 else 0) := rfl
      have h3 : deficit a t = (if g = a then 1 else 0) := by simp [deficit, hp]
      omega
    have hown' := h.owned hi hy
    have hne' : g' ≠ g := fun h => hne h.symm
    refine ⟨?_, ?_, ?_, ?_, h.good⟩
    · intro a ha
      simp only [St.put] at ha ⊢
      have h1 := hct a
      have h2 := hdt a
      by_cases hag : g = a
      · subst hag
        rw [if_pos rfl, if_neg hne'] at h1
        omega
      · have hag2 : a ≠ g := fun h => hag h.symm
        obtain ⟨c1, h3, h4, h5⟩ := h.cnt a (by
          by_cases hag' : g' = a
          · subst hag'; exact hown'
          · rw [if_neg hag, if_neg hag'] at h1; omega)
        exact ⟨c1, by simp [upd, hag2, h3], by omega, by simpa [upd, hag2] using h5⟩
    · intro a ha
      simp only [St.put] at ha ⊢
      have h1 := hct a
      by_cases hag : a = g
      · subst hag; simp [upd]
      · have hag2 : g ≠ a := fun h => hag h.symm
        rw [if_neg hag2] at h1
        simpa [upd, hag] using h.dead a (by omega)
    · intro a ha
      simp only [St.put] at ha ⊢
      have h1 := hct a
      have h2 := h.fresh a ha
      by_cases hag' : g' = a
      · subst hag'; exact absurd h2 (by omega)
      · rw [if_neg hag'] at h1; omega
    · intro j u hj
      rcases get_set hi hj with ⟨_, rfl⟩ | ⟨hji, hj⟩
      · have hlt := (List.getElem?_eq_some_iff.mp hx).1
        simpa [TOk] using List.mem_set hlt g'
      · exact (h.ok j u hj).upd (hothers g (by simp [hp, Phase.busy]) j u hji hj)
  | incLoad g =>
    simp only [TOk, hp] at hok
    obtain ⟨c, hc, _, _⟩ := h.cnt g (h.owned hi hok)
    simp only [Threads.proceed, hc]
    exact h.quiet hi (bufs := s.bufs) (fun _ => rfl) rfl (fun a => by simp [deficit, hp]) (by simp [TOk, hok, hc])
  | incStore g k =>
    simp only [TOk, hp] at hok
    have hown := h.owned hi hok.1
    obtain ⟨c, hc, hsum, _⟩ := h.cnt g hown
    have hk : c = k := by rw [hok.2] at hc; exact (Option.some.inj hc).symm
    subst hk
    have hD := total_set (deficit g) hi { t with phase := .idle }
    have hC := total_set (Threads.cnt g) hi { t with phase := .idle }
    have e1 : deficit g { t with phase := .idle } = 0 := rfl
    have e2 : deficit g t = 1 := by simp [deficit, hp]
    have e3 : Threads.cnt g { t with phase := .idle } = Threads.cnt g t := rfl
    have e5 : 0 < Threads.cnt g t := List.count_pos_iff.mpr hok.1
    simp only [Threads.proceed, hc]
    refine h.store he hi (by simp [hp, Phase.busy]) ?_ ?_ hown (by omega) (by omega) trivial
    · intro a _; rfl
    · intro a ha
      have : g ≠ a := fun h => ha h.symm
      simp [deficit, hp, this]

theorem Inv.step {s : St V} (h : Inv s) (he : Excl s) (i : Nat) : Inv (step i s) := by
  unfold Threads.step
  split
  · exact h
  · rename_i t hi
    split
    · exact h
    · split
      · rename_i hp
        split
        · exact h
        · exact h.begin hi hp _ _
      · exact h.proceed he hi

theorem Inv.run {is : List Nat} {s : St V} (h : Inv s) (ha : Along Excl is s) : Inv (run is s) := by
  induction is generalizing s with
  | nil => exact h
  | cons i is ih => exact ih (h.step ha.1 i) ha.2

theorem Start.inv {s : St V} (h : Start s) : Inv s := by
  have hd : ∀ g, total (deficit g) s.ts = 0 := fun g =>
    total_eq_zero _ fun j u hj => by simp [deficit, h.idle u (List.mem_of_getElem? hj)]
  refine ⟨?_, h.dead, h.fresh, ?_, h.good⟩
  · intro g hg
    obtain ⟨h1, h2⟩ := h.cnt g hg
    exact ⟨_, h1, by rw [hd]; rfl, h2⟩
  · intro i t hi
    simp [TOk, h.idle t (List.mem_of_getElem? hi)]

/-! ## C118 -/

/-- **C118** (partial: provided that no two threads use the same counter at the same time). Memory is used as it should
be throughout the run: nothing freed is used, every array has its buffer, buffers without arrays are freed, and the
counter of a buffer is the number of its arrays once the threads have finished what they were doing. -/
theorem C118_exclusive_partial {s : St V} (h : Start s) {is : List Nat} (ha : Along Excl is s) :
    (run is s).bad = false ∧
    (∀ g, 0 < owners g (run is s) → ((run is s).bufs g).isSome) ∧
    (∀ g, owners g (run is s) = 0 → (run is s).bufs g = none ∧ (run is s).cnts g = none) ∧
    ((∀ t ∈ (run is s).ts, t.phase = .idle) → ∀ g, 0 < owners g (run is s) →
      (run is s).cnts g = some (owners g (run is s))) := by
  have hI := h.inv.run ha
  refine ⟨hI.good, fun g hg => (hI.cnt g hg).choose_spec.2.2, fun g hg => (hI.dead g hg).symm, ?_⟩
  intro hidle g hg
  obtain ⟨c, h1, h2, _⟩ := hI.cnt g hg
  have hd : total (deficit g) (run is s).ts = 0 :=
    total_eq_zero _ fun j u hj => by simp [deficit, hidle u (List.mem_of_getElem? hj)]
  rw [h1, owners_eq]
  congr 1
  omega

/-- The schedule of threads that hold a lock during each operation: a step is taken only if no other thread is within an
operation. -/
def Locked : List Nat → St V → Prop
  | [], _ => True
  | i :: is, s => (∀ (j : Nat) t, j ≠ i → s.ts[j]? = some t → t.phase = .idle) ∧ Locked is (step i s)

theorem Locked.along {is : List Nat} {s : St V} (h : Locked is s) : Along Excl is s := by
  induction is generalizing s with
  | nil => trivial
  | cons i is ih =>
    refine ⟨?_, ih h.2⟩
    intro j k t u g hj hk hbt hbu
    have e1 : j = i := by
      apply Decidable.byContradiction
      intro hne
      simp [h.1 j t hne hj, Phase.busy] at hbt
    have e2 : k = i := by
      apply Decidable.byContradiction
      intro hne
      simp [h.1 k u hne hk, Phase.busy] at hbu
    rw [e1, e2]

/-- **C118** (partial: each operation is done under a lock, the same for all threads). -/
theorem C118_locked_partial {s : St V} (h : Start s) {is : List Nat} (ha : Locked is s)
    (hidle : ∀ t ∈ (run is s).ts, t.phase = .idle) :
    (run is s).bad = false ∧ ∀ g,
      (owners g (run is s) = 0 → (run is s).bufs g = none ∧ (run is s).cnts g = none) ∧
      (0 < owners g (run is s) → ((run is s).bufs g).isSome ∧ (run is s).cnts g = some (owners g (run is s))) := by
  obtain ⟨h1, h2, h3, h4⟩ := C118_exclusive_partial h ha.along
  exact ⟨h1, fun g => ⟨h3 g, fun hg => ⟨h2 g hg, h4 hidle g hg⟩⟩⟩

/-! Threads that share no buffer -/

/-- No buffer has arrays in two threads. -/
def Separate (s : St V) : Prop :=
  ∀ (i j : Nat) (t u : Thread V) (g : Nat), s.ts[i]? = some t → s.ts[j]? = some u → g ∈ t.vars → g ∈ u.vars → i = j

/-- The arrays that a thread may have after a step: those it had, or a new one. -/
theorem step_vars {s : St V} (h : Inv s) {i j : Nat} {u : Thread V} (hj : (step i s).ts[j]? = some u) :
    ∃ u', s.ts[j]? = some u' ∧ ∀ g ∈ u.vars, g ∈ u'.vars ∨ (j = i ∧ g = s.next) := by
  have hsame : s.ts[j]? = some u → ∃ u', s.ts[j]? = some u' ∧ ∀ g ∈ u.vars, g ∈ u'.vars ∨ (j = i ∧ g = s.next) :=
    fun h => ⟨u, h, fun g hg => .inl hg⟩
  have hput : ∀ (t : Thread V) (t' : Thread V), s.ts[i]? = some t → (∀ g ∈ t'.vars, g ∈ t.vars ∨ g = s.next) →
      (s.ts.set i t')[j]? = some u →
      ∃ u', s.ts[j]? = some u' ∧ ∀ g ∈ u.vars, g ∈ u'.vars ∨ (j = i ∧ g = s.next) := by
    intro t t' hi hv hj
    rcases get_set hi hj with ⟨rfl, rfl⟩ | ⟨_, hj⟩
    · exact ⟨t, hi, fun g hg => (hv g hg).imp id fun h => ⟨rfl, h⟩⟩
    · exact hsame hj
  unfold Threads.step at hj
  split at hj
  · exact hsame hj
  rename_i t hi
  have hok := h.ok i t hi
  split at hj
  · exact hsame hj
  split at hj
  · split at hj
    · exact hsame hj
    · rename_i op ops _
      cases op <;> simp only [Threads.begin] at hj <;> (repeat' split at hj) <;>
        first
        | exact hsame hj
        | (refine hput t _ hi ?_ hj; intro g hg; simp only [List.mem_append, List.mem_singleton] at hg; exact hg)
        | (refine hput t _ hi ?_ hj; intro g hg; exact .inl hg)
  · cases hp : t.phase <;> rw [hp] at hj <;> simp only [Threads.proceed] at hj <;> (repeat' split at hj) <;>
      simp only [TOk, hp] at hok <;>
      first
      | exact hsame hj
      | (refine hput t _ hi ?_ hj; intro g hg; exact .inl hg)
      | (refine hput t _ hi ?_ hj; intro g hg
         simp only [List.mem_append, List.mem_singleton] at hg
         rcases hg with hg | hg
         · exact .inl hg
         · subst hg; exact .inl hok.1)
      | (refine hput t _ hi ?_ hj; intro g hg
         rcases List.mem_or_eq_of_mem_set hg with hg | hg
         · exact .inl hg
         · subst hg; exact .inl hok.2.1)

theorem Separate.excl {s : St V} (h : Inv s) (hs : Separate s) : Excl s := by
  intro i j t u g hi hj hb hb'
  exact hs i j t u g hi hj ((h.ok i t hi).busy_mem hb) ((h.ok j u hj).busy_mem hb')

theorem Separate.step {s : St V} (h : Inv s) (hs : Separate s) (k : Nat) : Separate (step k s) := by
  intro i j t u g hi hj hg hg'
  obtain ⟨t', hi', ht⟩ := step_vars h hi
  obtain ⟨u', hj', hu⟩ := step_vars h hj
  have hnot : ∀ {m : Nat} {w : Thread V}, s.ts[m]? = some w → s.next ∉ w.vars := by
    intro m w hm hw
    have := h.owned hm hw
    have := h.fresh s.next (Nat.le_refl _)
    omega
  rcases ht g hg with h1 | ⟨h1, h1'⟩ <;> rcases hu g hg' with h2 | ⟨h2, h2'⟩
  · exact hs i j t' u' g hi' hj' h1 h2
  · subst h2'; exact absurd h1 (hnot hi')
  · subst h1'; exact absurd h2 (hnot hj')
  · rw [h1, h2]

theorem Separate.along {is : List Nat} {s : St V} (h : Inv s) (hs : Separate s) : Along Excl is s := by
  induction is generalizing s with
  | nil => trivial
  | cons i is ih => exact ⟨hs.excl h, ih (h.step (hs.excl h) i) (hs.step h i)⟩

/-- **C118** (partial: the threads share no buffer). Then every schedule is harmless. -/
theorem C118_separate_partial {s : St V} (h : Start s) (hs : Separate s) (is : List Nat) :
    (run is s).bad = false ∧
    (∀ g, 0 < owners g (run is s) → ((run is s).bufs g).isSome) ∧
    (∀ g, owners g (run is s) = 0 → (run is s).bufs g = none ∧ (run is s).cnts g = none) ∧
    ((∀ t ∈ (run is s).ts, t.phase = .idle) → ∀ g, 0 < owners g (run is s) →
      (run is s).cnts g = some (owners g (run is s))) :=
  C118_exclusive_partial h (hs.along h.inv)

/-! Threads that only copy -/

/-- The operation is not an assignment. -/
def Op.NoAssign : Op V → Prop
  | .assign _ _ => False
  | _ => True

structure CInv (s : St V) : Prop where
  cnt : ∀ g, 0 < total (cnt g) s.ts →
    ∃ c, s.cnts g = some c ∧ 1 ≤ c ∧ c ≤ total (cnt g) s.ts ∧ (s.bufs g).isSome
  fresh : ∀ g, s.next ≤ g → total (Threads.cnt g) s.ts = 0
  ok : ∀ (i : Nat) t, s.ts[i]? = some t → t.phase = .idle ∨
    ∃ g k, t.phase = .copyStore g k ∧ g ∈ t.vars ∧ k ≤ total (Threads.cnt g) s.ts
  ops : ∀ (i : Nat) t, s.ts[i]? = some t → ∀ o ∈ t.ops, o.NoAssign
  good : s.bad = false

theorem CInv.owned {s : St V} (_ : CInv s) {i : Nat} {t : Thread V} (hi : s.ts[i]? = some t) {g : Nat}
    (hg : g ∈ t.vars) : 0 < total (Threads.cnt g) s.ts := by
  have h1 := le_total (Threads.cnt g) hi
  have h2 : 0 < Threads.cnt g t := List.count_pos_iff.mpr hg
  omega

theorem CInv.quiet {s : St V} (h : CInv s) {i : Nat} {t t' : Thread V} (hi : s.ts[i]? = some t)
    {bufs : Nat → Option (List V)} (hb : ∀ g, (bufs g).isSome = (s.bufs g).isSome)
    (hv : t'.vars = t.vars) (ho : ∀ o ∈ t'.ops, o ∈ t.ops)
    (hok : t'.phase = .idle ∨ ∃ g k, t'.phase = .copyStore g k ∧ g ∈ t.vars ∧ k ≤ total (Threads.cnt g) s.ts) :
    CInv ({ s with bufs := bufs }.put i t') := by
  have hc : ∀ g, total (Threads.cnt g) (s.ts.set i t') = total (Threads.cnt g) s.ts := by
    intro g
    have := total_set (Threads.cnt g) hi t'
    have : Threads.cnt g t' = Threads.cnt g t := by simp [Threads.cnt, hv]
    omega
  refine ⟨?_, ?_, ?_, ?_, h.good⟩
  · intro g hg
    simp only [St.put, hc, hb] at hg ⊢
    exact h.cnt g hg
  · intro g hg
    simp only [St.put, hc] at hg ⊢
    exact h.fresh g hg
  · intro j u hj
    simp only [St.put, hc]
    rcases get_set hi hj with ⟨_, rfl⟩ | ⟨_, hj⟩
    · rw [hv]; exact hok
    · exact h.ok j u hj
  · intro j u hj
    rcases get_set hi hj with ⟨_, rfl⟩ | ⟨_, hj⟩
    · exact fun o hmem => h.ops i t hi o (ho o hmem)
    · exact h.ops j u hj

/-- One more array with buffer `g`, whose counter becomes `c`. -/
theorem CInv.add {s : St V} (h : CInv s) {i : Nat} {t t' : Thread V} (hi : s.ts[i]? = some t) {g c next : Nat}
    {bufs : Nat → Option (List V)} (hb : ∀ a, a ≠ g → bufs a = s.bufs a) (hbg : (bufs g).isSome)
    (hv : t'.vars = t.vars ++ [g]) (hp : t'.phase = .idle) (ho : ∀ o ∈ t'.ops, o ∈ t.ops)
    (hn : s.next ≤ next) (hg : g < next) (hc1 : 1 ≤ c) (hc : c ≤ total (Threads.cnt g) s.ts + 1) :
    CInv ({ s with bufs := bufs, cnts := upd s.cnts g (some c), next := next }.put i t') := by
  have hct : ∀ a, total (Threads.cnt a) (s.ts.set i t') = total (Threads.cnt a) s.ts + (if g = a then 1 else 0) := by
    intro a
    have := total_set (Threads.cnt a) hi t'
    have h2 : Threads.cnt a t' = Threads.cnt a t + (if g = a then 1 else 0) := by
      simp [Threads.cnt, hv, List.count_append, List.count_cons]
    omega
  refine ⟨?_, ?_, ?_, ?_, h.good⟩
  · intro a ha
    simp only [St.put, hct] at ha ⊢
    by_cases hag : g = a
    · subst hag
      exact ⟨c, by simp [upd], hc1, by simpa using hc, hbg⟩
    · have hag' : a ≠ g := fun h => hag h.symm
      simp only [hag, if_false, Nat.add_zero] at ha ⊢
      obtain ⟨c1, h1, h2, h3, h4⟩ := h.cnt a ha
      exact ⟨c1, by simp [upd, hag', h1], h2, h3, by rw [hb a hag']; exact h4⟩
  · intro a ha
    simp only [St.put, hct] at ha ⊢
    have := h.fresh a (Nat.le_trans hn ha)
    rw [if_neg (by omega)]; omega
  · intro j u hj
    simp only [St.put, hct]
    rcases get_set hi hj with ⟨_, rfl⟩ | ⟨_, hj⟩
    · exact .inl hp
    · rcases h.ok j u hj with h1 | ⟨g1, k, h1, h2, h3⟩
      · exact .inl h1
      · exact .inr ⟨g1, k, h1, h2, by omega⟩
  · intro j u hj
    rcases get_set hi hj with ⟨_, rfl⟩ | ⟨_, hj⟩
    · exact fun o hmem => h.ops i t hi o (ho o hmem)
    · exact h.ops j u hj

theorem CInv.step {s : St V} (h : CInv s) (i : Nat) : CInv (step i s) := by
  unfold Threads.step
  split
  · exact h
  rename_i t hi
  have hfail : t.phase = .idle → CInv (s.put i { t with failed := true }) := fun hp =>
    h.quiet hi (bufs := s.bufs) (fun _ => rfl) rfl (fun _ ho => ho) (.inl hp)
  split
  · exact h
  split
  · rename_i hp
    split
    · exact h
    rename_i op ops hops
    have hmem : ∀ o ∈ ops, o ∈ t.ops := fun o ho => by rw [hops]; exact List.mem_cons_of_mem _ ho
    have hno := h.ops i t hi op (by rw [hops]; exact List.mem_cons_self)
    cases op with
    | new vs =>
      refine h.add hi (g := s.next) (c := 1) (next := s.next + 1) (bufs := upd s.bufs s.next (some vs))
        (fun a ha => by simp [upd, ha]) (by simp [upd]) rfl hp hmem (by omega) (by omega) (by omega) (by omega)
    | copy y =>
      simp only [Threads.begin]
      split
      · exact hfail hp
      · rename_i g hg
        have hm := List.mem_of_getElem? hg
        obtain ⟨c, hc, _, hle, _⟩ := h.cnt g (h.owned hi hm)
        simp only [hc]
        exact h.quiet hi (bufs := s.bufs) (fun _ => rfl) rfl hmem (.inr ⟨g, c, rfl, hm, hle⟩)
    | assign x y => exact hno.elim
    | write x j v =>
      simp only [Threads.begin]
      split
      · exact hfail hp
      · rename_i g hg
        obtain ⟨c, _, _, _, hb⟩ := h.cnt g (h.owned hi (List.mem_of_getElem? hg))
        obtain ⟨l, hl⟩ := Option.isSome_iff_exists.mp hb
        simp only [hl]
        split
        · refine h.quiet hi ?_ rfl hmem (.inl hp)
          intro a
          by_cases ha : a = g
          · subst ha; simp [upd, hl]
          · simp [upd, ha]
        · exact hfail hp
    | read x j =>
      simp only [Threads.begin]
      split
      · exact hfail hp
      · rename_i g hg
        obtain ⟨c, _, _, _, hb⟩ := h.cnt g (h.owned hi (List.mem_of_getElem? hg))
        obtain ⟨l, hl⟩ := Option.isSome_iff_exists.mp hb
        simp only [hl]
        split
        · exact hfail hp
        · exact h.quiet hi (bufs := s.bufs) (fun _ => rfl) rfl hmem (.inl hp)
  · rename_i hp
    rcases h.ok i t hi with h1 | ⟨g, k, h1, h2, h3⟩
    · exact absurd h1 hp
    · have hown := h.owned hi h2
      obtain ⟨c, hc, _, hle, hb⟩ := h.cnt g hown
      have hlt : g < s.next := by
        apply Decidable.byContradiction
        intro hn
        have := h.fresh g (by omega)
        omega
      rw [h1]
      simp only [Threads.proceed, hc]
      exact h.add hi (g := g) (c := k + 1) (next := s.next) (bufs := s.bufs) (fun _ _ => rfl) hb rfl rfl
        (fun _ ho => ho) (Nat.le_refl _) hlt (by omega) (by omega)

theorem CInv.run {s : St V} (h : CInv s) (is : List Nat) : CInv (run is s) := by
  induction is generalizing s with
  | nil => exact h
  | cons i is ih => exact ih (h.step i)

/-- **C118** (partial: no assignments). In every schedule of threads that construct, copy, read and write arrays, no
memory is freed or used after it was freed; counters may lose increments, but do not exceed the number of arrays. -/
theorem C118_copies_partial {s : St V} (h : Start s) (ho : ∀ t ∈ s.ts, ∀ o ∈ t.ops, o.NoAssign) (is : List Nat) :
    (run is s).bad = false ∧ ∀ g, 0 < owners g (run is s) → ((run is s).bufs g).isSome ∧
      ∃ c, (run is s).cnts g = some c ∧ 1 ≤ c ∧ c ≤ owners g (run is s) := by
  have hI : CInv s := by
    refine ⟨?_, h.fresh, ?_, ?_, h.good⟩
    · intro g hg
      obtain ⟨h1, h2⟩ := h.cnt g hg
      exact ⟨_, h1, hg, Nat.le_refl _, h2⟩
    · intro i t hi; exact .inl (h.idle t (List.mem_of_getElem? hi))
    · intro i t hi; exact ho t (List.mem_of_getElem? hi)
  have hR := hI.run is
  refine ⟨hR.good, fun g hg => ?_⟩
  obtain ⟨c, h1, h2, h3, h4⟩ := hR.cnt g hg
  exact ⟨h4, c, h1, h2, h3⟩

/-! The property is false -/

/-- Two threads, each with one array of the shared buffer 0; then thread 0 also has buffer 1 and thread 1 buffer 2. -/
def two (ops0 ops1 : List (Op Nat)) : St Nat where
  bufs := fun g => if g = 0 then some [7] else if g = 1 then some [8] else if g = 2 then some [9] else none
  cnts := fun g => if g = 0 then some 2 else if g = 1 then some 1 else if g = 2 then some 1 else none
  next := 3
  ts := [⟨[0, 1], ops0, .idle, [], false⟩, ⟨[0, 2], ops1, .idle, [], false⟩]
  bad := false

theorem two_start (ops0 ops1 : List (Op Nat)) : Start (two ops0 ops1) := by
  have ho : ∀ g, owners g (two ops0 ops1) = if g = 0 then 2 else if g = 1 then 1 else if g = 2 then 1 else 0 := by
    intro g
    simp only [owners, two, List.map_cons, List.map_nil, List.count_cons, List.count_nil, List.sum_cons, List.sum_nil,
      beq_iff_eq]
    by_cases h0 : g = 0
    · subst h0; rfl
    · by_cases h1 : g = 1
      · subst h1; rfl
      · by_cases h2 : g = 2
        · subst h2; rfl
        · have e0 : (0 : Nat) ≠ g := fun h => h0 h.symm
          have e1 : (1 : Nat) ≠ g := fun h => h1 h.symm
          have e2 : (2 : Nat) ≠ g := fun h => h2 h.symm
          simp [h0, h1, h2, e0, e1, e2]
  refine ⟨?_, ?_, ?_, ?_, rfl⟩
  · intro g hg
    rw [ho] at hg ⊢
    simp only [two]
    (repeat' split at hg) <;> simp_all
  · intro g hg
    rw [ho] at hg
    simp only [two]
    (repeat' split at hg) <;> simp_all
  · intro g hg
    rw [ho]
    simp only [two] at hg
    rw [if_neg (by omega), if_neg (by omega), if_neg (by omega)]
  · intro t ht
    simp only [two, List.mem_cons, List.not_mem_nil, or_false] at ht
    rcases ht with rfl | rfl <;> rfl

/-- **C118** is false: two threads that copy arrays of the same buffer at the same time lose an increment; when the
arrays but one have got other buffers, the buffer is freed although that array still has it, and then it is used. -/
theorem C118_refuted : ∃ (s : St Nat) (is : List Nat), Start s ∧ (run is s).bad = true ∧
    ∃ g, 0 < owners g (run is s) ∧ (run is s).bufs g = none :=
  ⟨two [.copy 0, .assign 0 1, .assign 2 1] [.copy 0, .assign 0 1, .read 2 0],
    [0, 1, 0, 1] ++ List.replicate 10 0 ++ List.replicate 8 1, two_start _ _, by decide +kernel,
    0, by decide +kernel, by decide +kernel⟩

/-- Two threads that give up arrays of the same buffer at the same time lose a decrement: the buffer is never freed. -/
theorem C118_leak_refuted : ∃ (s : St Nat) (is : List Nat), Start s ∧ (∀ t ∈ (run is s).ts, t.phase = .idle ∧ t.ops.length = 0) ∧
    (run is s).bad = false ∧ ∃ g, owners g (run is s) = 0 ∧ (run is s).bufs g ≠ none :=
  ⟨two [.assign 0 1] [.assign 0 1], [0, 1] ++ List.replicate 4 0 ++ List.replicate 4 1, two_start _ _,
    by decide +kernel, by decide +kernel, 0, by decide +kernel, by decide +kernel⟩

/-- The schedule of a machine with atomic `++` and `--`: no other thread takes a step between load and store. -/
def AtomicCounters : List Nat → St V → Prop
  | [], _ => True
  | i :: is, s => (∀ (j : Nat) t, j ≠ i → s.ts[j]? = some t →
      match t.phase with
      | .copyStore _ _ | .decStore _ _ _ _ | .incStore _ _ => False
      | _ => True) ∧ AtomicCounters is (step i s)

/-- Boolean version of `AtomicCounters`. -/
def atomicCounters : List Nat → St V → Bool
  | [], _ => true
  | i :: is, s => ((s.ts.zipIdx.all fun p => p.2 == i ||
      match p.1.phase with
      | .copyStore _ _ | .decStore _ _ _ _ | .incStore _ _ => false
      | _ => true)) && atomicCounters is (step i s)

theorem atomicCounters_spec {is : List Nat} {s : St V} (h : atomicCounters is s = true) : AtomicCounters is s := by
  induction is generalizing s with
  | nil => trivial
  | cons i is ih =>
    simp only [atomicCounters, Bool.and_eq_true, List.all_eq_true] at h
    refine ⟨?_, ih h.2⟩
    intro j t hji hj
    have h1 := h.1 (t, j) (by
      rw [List.mem_zipIdx_iff_getElem?]; exact hj)
    have hne : (j == i) = false := by simpa using hji
    rw [hne, Bool.false_or] at h1
    split <;> simp_all

/-- An atomic counter would not be enough: `--*_count; if(*_count==0)` decrements and tests in two steps, and two threads
that give up the last two arrays can both find 0, so that the buffer is deleted twice. -/
theorem C118_atomic_refuted : ∃ (s : St Nat) (is : List Nat), Start s ∧ AtomicCounters is s ∧ (run is s).bad = true :=
  ⟨two [.assign 0 1] [.assign 0 1], [0, 0, 1, 1, 0, 1, 0, 1], two_start _ _, atomicCounters_spec (by decide +kernel),
    by decide +kernel⟩

/-- A step of an operation that uses a counter is undefined when the counter has been freed. -/
theorem C118_freed (s : St V) (i : Nat) (t : Thread V) (p : Phase) (g : Nat) (hp : p.busy = some g) (hg : s.cnts g = none) :
    (proceed s i t p).bad = true := by
  cases p <;> simp only [Phase.busy, Option.some.injEq, reduceCtorEq] at hp <;> subst hp <;> simp [proceed, hg]

example : (Phase.decStore 0 3 4 1).busy = some 3 := rfl

/-! Non-vacuity -/

/-- The threads of `C118_refuted`, one after the other: all is well, and the buffer is still there. -/
def calm : St Nat := two [.copy 0, .assign 0 1, .assign 2 1] [.copy 0, .assign 0 1, .read 2 0]

instance (i : Nat) (s : St V) : Decidable (∀ (j : Nat) t, j ≠ i → s.ts[j]? = some t → t.phase = .idle) :=
  decidable_of_iff (∀ p ∈ s.ts.zipIdx, p.2 ≠ i → p.1.phase = .idle) (by
    constructor
    · intro h j t hji hj
      exact h (t, j) (by rw [List.mem_zipIdx_iff_getElem?]; exact hj) hji
    · intro h p hp hne
      exact h p.2 p.1 hne (by rw [List.mem_zipIdx_iff_getElem?] at hp; exact hp))

def decLocked : (is : List Nat) → (s : St V) → Decidable (Locked is s)
  | [], _ => .isTrue trivial
  | i :: is, s => by
    have := decLocked is (step i s)
    unfold Locked
    infer_instance

instance (is : List Nat) (s : St V) : Decidable (Locked is s) := decLocked is s

example : Locked ([0, 0] ++ [1, 1] ++ List.replicate 10 0 ++ List.replicate 6 1) calm ∧
    (run ([0, 0] ++ [1, 1] ++ List.replicate 10 0 ++ List.replicate 6 1) calm).cnts 0 = some 1 ∧
    owners 0 (run ([0, 0] ++ [1, 1] ++ List.replicate 10 0 ++ List.replicate 6 1) calm) = 1 ∧
    ∀ t ∈ (run ([0, 0] ++ [1, 1] ++ List.replicate 10 0 ++ List.replicate 6 1) calm).ts, t.phase = .idle := by
  decide +kernel

example : Along Excl ([0, 0] ++ [1, 1] ++ List.replicate 10 0 ++ List.replicate 6 1) calm :=
  Locked.along (by decide +kernel)

/-- Threads that share nothing. -/
def apart : St Nat where
  bufs := fun g => if g = 0 then some [7] else if g = 1 then some [8] else none
  cnts := fun g => if g = 0 then some 1 else if g = 1 then some 1 else none
  next := 2
  ts := [⟨[0], [.copy 0, .new [1, 2], .assign 0 2], .idle, [], false⟩, ⟨[1], [.copy 0, .new [3]], .idle, [], false⟩]
  bad := false

theorem apart_start : Start apart := by
  have ho : ∀ g, owners g apart = if g = 0 then 1 else if g = 1 then 1 else 0 := by
    intro g
    simp only [owners, apart, List.map_cons, List.map_nil, List.count_cons, List.count_nil, List.sum_cons, List.sum_nil, beq_iff_eq]
    by_cases h0 : g = 0
    · subst h0; rfl
    · by_cases h1 : g = 1
      · subst h1; rfl
      · have e0 : (0 : Nat) ≠ g := fun h => h0 h.symm
        have e1 : (1 : Nat) ≠ g := fun h => h1 h.symm
        simp [h0, h1, e0, e1]
  refine ⟨?_, ?_, ?_, ?_, rfl⟩
  · intro g hg
    rw [ho] at hg ⊢
    simp only [apart]
    (repeat' split at hg) <;> simp_all
  · intro g hg
    rw [ho] at hg
    simp only [apart]
    (repeat' split at hg) <;> simp_all
  · intro g hg
    rw [ho]
    simp only [apart] at hg
    rw [if_neg (by omega), if_neg (by omega)]
  · intro t ht
    simp only [apart, List.mem_cons, List.not_mem_nil, or_false] at ht
    rcases ht with rfl | rfl <;> rfl

example : Separate apart ∧ (run [0, 1, 0, 1, 1, 0, 0, 0, 0, 0, 0] apart).cnts 0 = some 1 ∧
    (run [0, 1, 0, 1, 1, 0, 0, 0, 0, 0, 0] apart).cnts 1 = some 2 := by
  refine ⟨?_, by decide +kernel, by decide +kernel⟩
  intro i j t u g hi hj hg hg'
  have h2 : ∀ {m : Nat} {w : Thread Nat}, apart.ts[m]? = some w → (m = 0 ∧ w.vars = [0]) ∨ (m = 1 ∧ w.vars = [1]) := by
    intro m w hm
    match m with
    | 0 => simp [apart] at hm; subst hm; exact .inl ⟨rfl, rfl⟩
    | 1 => simp [apart] at hm; subst hm; exact .inr ⟨rfl, rfl⟩
    | m + 2 => simp [apart] at hm
  rcases h2 hi with ⟨rfl, h1⟩ | ⟨rfl, h1⟩ <;> rcases h2 hj with ⟨rfl, h3⟩ | ⟨rfl, h3⟩ <;> simp_all

/-- Copies at the same time: the counter loses an increment. -/
example : (∀ t ∈ (two [.copy 0] [.copy 0]).ts, ∀ o ∈ t.ops, o.NoAssign) ∧
    (run [0, 1, 0, 1] (two [.copy 0] [.copy 0])).cnts 0 = some 3 ∧
    owners 0 (run [0, 1, 0, 1] (two [.copy 0] [.copy 0])) = 4 := by
  refine ⟨?_, by decide +kernel, by decide +kernel⟩
  intro t ht o ho
  simp only [two, List.mem_cons, List.not_mem_nil, or_false] at ht
  rcases ht with rfl | rfl <;> (simp at ho; subst ho; trivial)

end Helper.Shared.Threads
