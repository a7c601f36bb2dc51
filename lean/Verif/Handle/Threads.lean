import Verif.Handle.Model
/-!
# Handles in threads (handle.hpp:62-121), property C101

Each thread has handles of its own, which may share objects with the handles of other threads, and a queue by which other threads send it
handles. The operations are split into the accesses that other threads can notice: the use counts of `std::shared_ptr`,
which are atomic, and the reading (also by `clone()`), writing and deleting of objects, which are not. A schedule is the list of the threads that take a
step. Allocation and `clone()` do not fail, and `clone()` reads its object and makes one with the same value. A handle is
empty after it has been released or moved from, or if it does not exist. A thread that uses an empty handle stops; this is undefined in C++ but
is the thread's own mistake.
-/
set_option linter.unusedSectionVars false
namespace Helper.Handle.Threads

variable {V : Type}

inductive Op (V : Type) where
  /-- lines 69-75: a handle to a new object -/ | create (v : V)
  /-- a const accessor (lines 84-101), used to read the object -/ | read (x : Nat)
  /-- a non-const accessor (lines 88-102), used at once to change the object -/ | modify (x : Nat) (v : V)
  /-- line 78 -/ | copy (y : Nat)
  /-- line 79 -/ | move (y : Nat)
  /-- line 80 -/ | assign (x y : Nat)
  /-- line 68 -/ | release (x : Nat)
  /-- a copy of handle `y` is put in the queue of thread `j` -/ | send (j y : Nat)
  /-- a handle is taken from the own queue; waits if there is none -/ | receive
  /-- lines 160-169: `dynamic_handle_extract`, used at once to change the object -/ | extract (x : Nat) (v : V)

/-- Where a thread is within an operation. -/
inductive Phase (V : Type) where
  | idle
  /-- line 109: the clone `n` has been made, not yet assigned to `ptr` -/ | cloned (x : Nat) (v : V) (n : Nat)
  /-- a pointer to `o` is about to be given up; then the change, if any -/ | dropping (o : Nat) (k : Option (Nat × V))
  /-- the last pointer to `o` has been given up; the object is about to be deleted -/ | deleting (o : Nat) (k : Option (Nat × V))
  /-- handle `x` is unique; its object is about to be changed -/ | writing (x : Nat) (v : V)

/-- The phase after the pointer has been given up. -/
def after : Option (Nat × V) → Phase V
  | none => .idle
  | some (x, v) => .writing x v

structure Thread (V : Type) where
  /-- the handles; `none` if empty -/
  hs : List (Option Nat)
  /-- the queue of handles sent by other threads -/
  inbox : List (Option Nat)
  ops : List (Op V)
  phase : Phase V
  /-- the values read -/
  out : List V
  failed : Bool

def Thread.get (t : Thread V) (x : Nat) : Option Nat := (t.hs[x]?).join

structure St (V : Type) where
  objs : Nat → Option V
  /-- the use counts -/
  cnt : Nat → Nat
  next : Nat
  ts : List (Thread V)
  /-- an object that does not exist has been accessed -/
  bad : Bool

def St.put (s : St V) (i : Nat) (t : Thread V) : St V := { s with ts := s.ts.set i t }

/-- One more pointer. -/
def inc (cnt : Nat → Nat) : Option Nat → Nat → Nat
  | none => cnt
  | some o => upd cnt o (cnt o + 1)

/-- A pointer has been overwritten and must be given up. -/
def drop : Option Nat → Phase V
  | none => .idle
  | some o => .dropping o none

/-- One step of thread `i`, in state `t`, at the beginning of operation `op`; `t'` is the thread without that operation. -/
def begin (s : St V) (i : Nat) (t t' : Thread V) : Op V → St V
  | .create v =>
    { s with objs := upd s.objs s.next (some v), cnt := upd s.cnt s.next 1, next := s.next + 1 }.put i
      { t' with hs := t.hs ++ [some s.next] }
  | .read x =>
    match t.get x with
    | none => s.put i { t with failed := true }
    | some o =>
      match s.objs o with
      | none => { s with bad := true }
      | some w => s.put i { t' with out := t.out ++ [w] }
  | .modify x v =>
    match t.get x with
    | none => s.put i { t with failed := true }
    | some o =>
      match s.objs o with
      | none => { s with bad := true }
      | some w =>
        { s with objs := upd s.objs s.next (some w), cnt := upd s.cnt s.next 1, next := s.next + 1 }.put i
          { t' with phase := .cloned x v s.next }
  | .copy y => { s with cnt := inc s.cnt (t.get y) }.put i { t' with hs := t.hs ++ [t.get y] }
  | .move y => s.put i { t' with hs := t.hs.set y none ++ [t.get y] }
  | .assign x y =>
    if x < t.hs.length then
      { s with cnt := inc s.cnt (t.get y) }.put i { t' with hs := t.hs.set x (t.get y), phase := drop (t.get x) }
    else s.put i { t with failed := true }
  | .release x => s.put i { t' with hs := t.hs.set x none, phase := drop (t.get x) }
  | .send j y =>
    match (s.put i t').ts[j]? with
    | none => s.put i { t with failed := true }
    | some u => ({ s with cnt := inc s.cnt (t.get y) }.put i t').put j { u with inbox := u.inbox ++ [t.get y] }
  | .receive =>
    match t.inbox with
    | [] => s
    | p :: r => s.put i { t' with hs := t.hs ++ [p], inbox := r }
  | .extract x v =>
    match t.get x with
    | none => s.put i { t with failed := true }
    | some o =>
      match s.objs o with
      | none => { s with bad := true }
      | some _ => { s with objs := upd s.objs o (some v) }.put i t'

/-- One step of thread `i`. -/
def step (i : Nat) (s : St V) : St V :=
  match s.ts[i]? with
  | none => s
  | some t =>
    if t.failed then s
    else
      match t.phase with
      | .cloned x v n => s.put i { t with hs := t.hs.set x (some n), phase := match t.get x with
          | none => .writing x v
          | some o => .dropping o (some (x, v)) }
      | .dropping o k =>
        { s with cnt := upd s.cnt o (s.cnt o - 1) }.put i { t with phase := if s.cnt o = 1 then .deleting o k else after k }
      | .deleting o k =>
        match s.objs o with
        | none => { s with bad := true }
        | some _ => { s with objs := upd s.objs o none }.put i { t with phase := after k }
      | .writing x v =>
        match t.get x with
        | none => { s with bad := true }
        | some o =>
          match s.objs o with
          | none => { s with bad := true }
          | some _ => { s with objs := upd s.objs o (some v) }.put i { t with phase := .idle }
      | .idle =>
        match t.ops with
        | [] => s
        | op :: ops => begin s i t { t with ops := ops } op

def run (sched : List Nat) (s : St V) : St V := sched.foldl (fun s i => step i s) s

/-- The object that the next step of the thread accesses, and whether it is written or deleted. -/
def Thread.access (t : Thread V) : Option (Nat × Bool) :=
  if t.failed then none
  else
    match t.phase with
    | .cloned _ _ _ => none
    | .dropping _ _ => none
    | .deleting o _ => some (o, true)
    | .writing x _ => (t.get x).map fun o => (o, true)
    | .idle =>
      match t.ops with
      | .read x :: _ => (t.get x).map fun o => (o, false)
      | .modify x _ :: _ => (t.get x).map fun o => (o, false)
      | .extract x _ :: _ => (t.get x).map fun o => (o, true)
      | _ => none

/-- Two threads are about to access the same object, and one of them writes or deletes it. -/
def Race (s : St V) : Prop :=
  ∃ (i j : Nat) (t u : Thread V) (o : Nat) (a b : Bool), i ≠ j ∧ s.ts[i]? = some t ∧ s.ts[j]? = some u ∧
    t.access = some (o, a) ∧ u.access = some (o, b) ∧ (a = true ∨ b = true)

/-! ## The same programs with values instead of shared objects -/

namespace Spec

structure Thread (V : Type) where
  vals : List (Option V)
  inbox : List (Option V)
  ops : List (Op V)
  out : List V
  failed : Bool

def Thread.get (t : Thread V) (x : Nat) : Option V := (t.vals[x]?).join

/-- The operation `op` of thread `i`; each handle contains a value of its own. -/
def perform (s : List (Thread V)) (i : Nat) (t t' : Thread V) : Op V → List (Thread V)
  | .create v => s.set i { t' with vals := t.vals ++ [some v] }
  | .read x =>
    match t.get x with
    | none => s.set i { t with failed := true }
    | some w => s.set i { t' with out := t.out ++ [w] }
  | .modify x v | .extract x v =>
    match t.get x with
    | none => s.set i { t with failed := true }
    | some _ => s.set i { t' with vals := t.vals.set x (some v) }
  | .copy y => s.set i { t' with vals := t.vals ++ [t.get y] }
  | .move y => s.set i { t' with vals := t.vals.set y none ++ [t.get y] }
  | .assign x y =>
    if x < t.vals.length then s.set i { t' with vals := t.vals.set x (t.get y) } else s.set i { t with failed := true }
  | .release x => s.set i { t' with vals := t.vals.set x none }
  | .send j y =>
    match (s.set i t')[j]? with
    | none => s.set i { t with failed := true }
    | some u => (s.set i t').set j { u with inbox := u.inbox ++ [t.get y] }
  | .receive =>
    match t.inbox with
    | [] => s
    | p :: r => s.set i { t' with vals := t.vals ++ [p], inbox := r }

def step (i : Nat) (s : List (Thread V)) : List (Thread V) :=
  match s[i]? with
  | none => s
  | some t =>
    if t.failed then s
    else
      match t.ops with
      | [] => s
      | op :: ops => perform s i t { t with ops := ops } op

def run (sched : List Nat) (s : List (Thread V)) : List (Thread V) := sched.foldl (fun s i => step i s) s

end Spec

/-- The change that a thread is in the middle of. -/
def Phase.pending : Phase V → List (Op V)
  | .cloned x v _ | .dropping _ (some (x, v)) | .deleting _ (some (x, v)) | .writing x v => [.modify x v]
  | _ => []

/-- A thread as its program sees it. -/
def Thread.view (objs : Nat → Option V) (t : Thread V) : Spec.Thread V :=
  ⟨t.hs.map (·.bind objs), t.inbox.map (·.bind objs), t.phase.pending ++ t.ops, t.out, t.failed⟩

def St.view (s : St V) : List (Spec.Thread V) := s.ts.map (Thread.view s.objs)

/-- A program without `dynamic_handle_extract`. -/
def Op.Safe : Op V → Prop
  | .extract _ _ => False
  | _ => True

/-! ## The invariant -/

/-- 1 if `p` points to `o`. -/
def one (p : Option Nat) (o : Nat) : Nat := if p = some o then 1 else 0

def phaseRefs (o : Nat) : Phase V → Nat
  | .cloned _ _ n => one (some n) o
  | .dropping n _ => one (some n) o
  | _ => 0

/-- The pointers of a thread to object `o`. -/
def refsT (o : Nat) (t : Thread V) : Nat := t.hs.count (some o) + t.inbox.count (some o) + phaseRefs o t.phase

def pendT (o : Nat) (t : Thread V) : Nat :=
  match t.phase with
  | .deleting n _ => one (some n) o
  | _ => 0

def total (f : Thread V → Nat) (ts : List (Thread V)) : Nat := (ts.map f).sum

/-- A thread within a change has the only pointer to the object that it will change. -/
def TOk (objs : Nat → Option V) (cnt : Nat → Nat) (t : Thread V) : Prop :=
  match t.phase with
  | .cloned x _ n => cnt n = 1 ∧ ∃ o w, t.get x = some o ∧ objs o = some w ∧ objs n = some w
  | .dropping _ (some (x, _)) | .deleting _ (some (x, _)) | .writing x _ => ∃ n, t.get x = some n ∧ cnt n = 1
  | _ => True

/-- Objects about to be deleted. -/
def doomed (objs : Nat → Option V) (cnt : Nat → Nat) (o : Nat) : Nat :=
  if (objs o).isSome = true ∧ cnt o = 0 then 1 else 0

structure Inv (s : St V) : Prop where
  count : ∀ o, s.cnt o = total (refsT o) s.ts
  alive : ∀ o, s.objs o = none → s.cnt o = 0
  pend : ∀ o, total (pendT o) s.ts = doomed s.objs s.cnt o
  fresh : ∀ o, s.next ≤ o → s.objs o = none
  ok : ∀ (i : Nat) t, s.ts[i]? = some t → TOk s.objs s.cnt t
  good : s.bad = false
  safe : ∀ (i : Nat) t, s.ts[i]? = some t → ∀ op ∈ t.ops, op.Safe

/-! ## Sums -/

theorem total_set (f : Thread V → Nat) {ts : List (Thread V)} {i : Nat} {t : Thread V} (h : ts[i]? = some t) (t' : Thread V) :
    total f (ts.set i t') + f t = total f ts + f t' := by
  induction ts generalizing i with
  | nil => simp at h
  | cons a r ih =>
    cases i with
    | zero => simp at h; subst h; simp [total]; omega
    | succ i =>
      simp only [List.getElem?_cons_succ] at h
      have := ih h
      simp only [total, List.set_cons_succ, List.map_cons, List.sum_cons] at *
      omega

theorem le_total (f : Thread V → Nat) {ts : List (Thread V)} {i : Nat} {t : Thread V} (h : ts[i]? = some t) :
    f t ≤ total f ts := by
  induction ts generalizing i with
  | nil => simp at h
  | cons a r ih =>
    cases i with
    | zero => simp at h; subst h; simp [total]
    | succ i =>
      simp only [List.getElem?_cons_succ] at h
      have := ih h
      simp only [total, List.map_cons, List.sum_cons] at *
      omega

theorem two_le_total (f : Thread V → Nat) {ts : List (Thread V)} {i j : Nat} {t u : Thread V} (hij : i ≠ j)
    (hi : ts[i]? = some t) (hj : ts[j]? = some u) : f t + f u ≤ total f ts := by
  induction ts generalizing i j with
  | nil => simp at hi
  | cons a r ih =>
    cases i with
    | zero =>
      cases j with
      | zero => exact absurd rfl hij
      | succ j =>
        simp at hi; subst hi
        simp only [List.getElem?_cons_succ] at hj
        have := le_total f hj
        simp only [total, List.map_cons, List.sum_cons] at *
        omega
    | succ i =>
      simp only [List.getElem?_cons_succ] at hi
      cases j with
      | zero =>
        simp at hj; subst hj
        have := le_total f hi
        simp only [total, List.map_cons, List.sum_cons] at *
        omega
      | succ j =>
        simp only [List.getElem?_cons_succ] at hj
        have := ih (by omega) hi hj
        simp only [total, List.map_cons, List.sum_cons] at *
        omega

theorem inc_eq (cnt : Nat → Nat) (p : Option Nat) (o : Nat) : inc cnt p o = cnt o + one p o := by
  cases p with
  | none => simp [inc, one]
  | some q =>
    by_cases h : o = q
    · subst h; simp [inc, upd, one]
    · have : ¬ q = o := fun e => h e.symm
      simp [inc, upd, one, h, this]

theorem count_get {l : List (Option Nat)} {x o : Nat} (h : (l[x]?).join = some o) : 0 < l.count (some o) := by
  rw [List.count_pos_iff]
  cases hx : l[x]? with
  | none => rw [hx] at h; simp at h
  | some q =>
    rw [hx] at h
    simp only [Option.join_some] at h
    rw [← h]; exact List.mem_of_getElem? hx

theorem held {t : Thread V} {x o : Nat} (h : t.get x = some o) : 0 < refsT o t := by
  have := count_get h
  unfold refsT; omega

theorem count_set_some {l : List (Option Nat)} {x : Nat} (p : Option Nat) (o : Nat) (h : x < l.length) :
    (l.set x p).count (some o) + one (l[x]?).join o = l.count (some o) + one p o := by
  induction l generalizing x with
  | nil => simp at h
  | cons a r ih =>
    cases x with
    | zero =>
      simp only [List.set_cons_zero, List.getElem?_cons_zero, Option.join_some, List.count_cons, one, beq_iff_eq]
      omega
    | succ x =>
      have := ih (x := x) (by simpa using h)
      simp only [List.set_cons_succ, List.getElem?_cons_succ, List.count_cons]
      omega

theorem count_set_none {l : List (Option Nat)} (x o : Nat) :
    (l.set x none).count (some o) + one (l[x]?).join o = l.count (some o) := by
  by_cases h : x < l.length
  · have := count_set_some none o h
    simpa [one] using this
  · rw [List.set_eq_of_length_le (by omega), List.getElem?_eq_none (by omega)]
    simp [one]

theorem phaseRefs_drop (p : Option Nat) (o : Nat) : phaseRefs o (drop p : Phase V) = one p o := by
  cases p <;> simp [drop, phaseRefs, one]

/-! ## What other threads see -/

theorem tok_frame {objs objs' : Nat → Option V} {cnt cnt' : Nat → Nat} {u : Thread V} (h : TOk objs cnt u)
    (ho : ∀ o, 0 < refsT o u → objs' o = objs o)
    (hc : ∀ o, 0 < refsT o u → cnt o = 1 → cnt' o = 1 ∨ u.phase = .idle) : TOk objs' cnt' u := by
  unfold TOk at h ⊢
  split at h
  · rename_i x v n hp
    obtain ⟨h1, o, w, h2, h3, h4⟩ := h
    have hn : 0 < refsT n u := by simp [refsT, hp, phaseRefs, one]
    refine ⟨?_, o, w, h2, by rw [ho o (held h2)]; exact h3, by rw [ho n hn]; exact h4⟩
    rcases hc n hn h1 with h | h
    · exact h
    · rw [hp] at h; cases h
  · rename_i k x v hp
    obtain ⟨n, h1, h2⟩ := h
    rcases hc n (held h1) h2 with h | h
    · exact ⟨n, h1, h⟩
    · rw [hp] at h; cases h
  · rename_i k x v hp
    obtain ⟨n, h1, h2⟩ := h
    rcases hc n (held h1) h2 with h | h
    · exact ⟨n, h1, h⟩
    · rw [hp] at h; cases h
  · rename_i x v hp
    obtain ⟨n, h1, h2⟩ := h
    rcases hc n (held h1) h2 with h | h
    · exact ⟨n, h1, h⟩
    · rw [hp] at h; cases h
  · trivial

theorem view_frame {objs objs' : Nat → Option V} {u : Thread V} (ho : ∀ o, 0 < refsT o u → objs' o = objs o) :
    u.view objs' = u.view objs := by
  have key : ∀ l : List (Option Nat), (∀ o, 0 < l.count (some o) → 0 < refsT o u) →
      l.map (·.bind objs') = l.map (·.bind objs) := by
    intro l hl
    refine List.map_congr_left fun p hp => ?_
    cases p with
    | none => rfl
    | some o => exact ho o (hl o (List.count_pos_iff.2 hp))
  simp only [Thread.view]
  rw [key u.hs (fun o h => by unfold refsT; omega), key u.inbox (fun o h => by unfold refsT; omega)]

/-- One thread changes. -/
theorem change {s : St V} (h : Inv s) {i : Nat} {t : Thread V} (ht : s.ts[i]? = some t) {t' : Thread V}
    {objs' : Nat → Option V} {cnt' : Nat → Nat} {next' : Nat}
    (hc : ∀ o, cnt' o + refsT o t = s.cnt o + refsT o t')
    (ha : ∀ o, objs' o = none → cnt' o = 0)
    (hp : ∀ o, doomed objs' cnt' o + pendT o t = doomed s.objs s.cnt o + pendT o t')
    (hf : ∀ o, next' ≤ o → objs' o = none)
    (hok : TOk objs' cnt' t')
    (hobj : ∀ (j : Nat) u, j ≠ i → s.ts[j]? = some u → ∀ o, 0 < refsT o u → objs' o = s.objs o)
    (hcnt : ∀ (j : Nat) u, j ≠ i → s.ts[j]? = some u → ∀ o, 0 < refsT o u → s.cnt o = 1 → cnt' o = 1 ∨ u.phase = .idle)
    (hs : ∀ op ∈ t'.ops, op ∈ t.ops) :
    Inv ⟨objs', cnt', next', s.ts.set i t', s.bad⟩ ∧
    St.view ⟨objs', cnt', next', s.ts.set i t', s.bad⟩ = s.view.set i (t'.view objs') := by
  have hi : i < s.ts.length := by
    rcases Nat.lt_or_ge i s.ts.length with h | h
    · exact h
    · rw [List.getElem?_eq_none h] at ht; cases ht
  have hget : ∀ (j : Nat) u, (s.ts.set i t')[j]? = some u → (j = i ∧ u = t') ∨ (j ≠ i ∧ s.ts[j]? = some u) := by
    intro j u hu
    rw [List.getElem?_set] at hu
    by_cases hj : i = j
    · rw [if_pos hj, if_pos hi] at hu
      exact .inl ⟨hj.symm, (Option.some.inj hu).symm⟩
    · rw [if_neg hj] at hu
      exact .inr ⟨fun e => hj e.symm, hu⟩
  refine ⟨⟨?_, ha, ?_, hf, ?_, h.good, ?_⟩, ?_⟩
  · intro o
    have h1 := hc o
    have h2 := h.count o
    have h3 := total_set (refsT o) ht t'
    show cnt' o = total (refsT o) (s.ts.set i t')
    omega
  · intro o
    have h1 := hp o
    have h2 := h.pend o
    have h3 := total_set (pendT o) ht t'
    show total (pendT o) (s.ts.set i t') = doomed objs' cnt' o
    omega
  · intro j u hu
    rcases hget j u hu with ⟨_, rfl⟩ | ⟨hj, hu⟩
    · exact hok
    · exact tok_frame (h.ok j u hu) (hobj j u hj hu) (hcnt j u hj hu)
  · intro j u hu op hop
    rcases hget j u hu with ⟨_, rfl⟩ | ⟨hj, hu⟩
    · exact h.safe i t ht op (hs op hop)
    · exact h.safe j u hu op hop
  · apply List.ext_getElem?
    intro j
    simp only [St.view, List.getElem?_map, List.getElem?_set, List.length_map]
    by_cases hj : i = j
    · subst hj; simp [hi]
    · simp only [if_neg hj]
      cases hu : s.ts[j]? with
      | none => rfl
      | some u => simp only [Option.map_some, view_frame (hobj j u (fun e => hj e.symm) hu)]

theorem set_same {α : Type u} {l : List α} {i : Nat} {a : α} (h : l[i]? = some a) : l.set i a = l := by
  apply List.ext_getElem?
  intro j
  rw [List.getElem?_set]
  split
  · rename_i e; subst e
    split
    · rw [h]
    · rename_i hn; rw [List.getElem?_eq_none (by omega)]
  · rfl

theorem view_get (objs : Nat → Option V) (t : Thread V) (x : Nat) :
    (t.view objs).get x = (t.get x).bind objs := by
  simp only [Thread.view, Spec.Thread.get, Thread.get, List.getElem?_map]
  cases t.hs[x]? <;> rfl

theorem view_at {s : St V} {i : Nat} {t : Thread V} (ht : s.ts[i]? = some t) : s.view[i]? = some (t.view s.objs) := by
  simp [St.view, ht]

theorem two_count {l : List (Option Nat)} {x y o : Nat} (hxy : x ≠ y) (hx : l[x]? = some (some o))
    (hy : l[y]? = some (some o)) : 2 ≤ l.count (some o) := by
  induction l generalizing x y with
  | nil => simp at hx
  | cons a r ih =>
    cases x with
    | zero =>
      cases y with
      | zero => exact absurd rfl hxy
      | succ y =>
        simp at hx; subst hx
        simp only [List.getElem?_cons_succ] at hy
        have : 0 < r.count (some o) := List.count_pos_iff.2 (List.mem_of_getElem? hy)
        rw [List.count_cons_self]; omega
    | succ x =>
      simp only [List.getElem?_cons_succ] at hx
      cases y with
      | zero =>
        simp at hy; subst hy
        have : 0 < r.count (some o) := List.count_pos_iff.2 (List.mem_of_getElem? hx)
        rw [List.count_cons_self]; omega
      | succ y =>
        simp only [List.getElem?_cons_succ] at hy
        have := ih (by omega) hx hy
        simp only [List.count_cons]; omega

theorem get_some {t : Thread V} {x o : Nat} (h : t.get x = some o) : t.hs[x]? = some (some o) := by
  unfold Thread.get at h
  cases hx : t.hs[x]? with
  | none => rw [hx] at h; simp at h
  | some q => rw [hx] at h; simpa using h

theorem get_lt {t : Thread V} {x o : Nat} (h : t.get x = some o) : x < t.hs.length := by
  have := get_some h
  rcases Nat.lt_or_ge x t.hs.length with h | h
  · exact h
  · rw [List.getElem?_eq_none h] at this; cases this

/-- What a step does, as seen by the programs: nothing, or the next operation of thread `i`. -/
def Good (i : Nat) (s s' : St V) : Prop := Inv s' ∧ (s'.view = s.view ∨ s'.view = Spec.step i s.view)

theorem good_same {s : St V} (h : Inv s) (i : Nat) : Good i s s := ⟨h, .inl rfl⟩

theorem tok_drop (objs : Nat → Option V) (cnt : Nat → Nat) (t : Thread V) (p : Option Nat) (hp : t.phase = drop p) :
    TOk objs cnt t := by
  cases p <;> simp [TOk, hp, drop]

theorem pend_drop (t : Thread V) (p : Option Nat) (o : Nat) (hp : t.phase = drop p) : pendT o t = 0 := by
  cases p <;> simp [pendT, hp, drop]

theorem pending_drop (p : Option Nat) : (drop p : Phase V).pending = [] := by
  cases p <;> rfl

section
variable {s : St V} (h : Inv s) {i : Nat} {t : Thread V} (ht : s.ts[i]? = some t) (hfail : t.failed = false)

include h ht

theorem others {j : Nat} {u : Thread V} (hj : j ≠ i) (hu : s.ts[j]? = some u) (o : Nat) :
    refsT o t + refsT o u ≤ s.cnt o := by
  rw [h.count o]; exact two_le_total (refsT o) (fun e => hj e.symm) ht hu

theorem own (o : Nat) : refsT o t ≤ s.cnt o := by
  rw [h.count o]; exact le_total (refsT o) ht

theorem alive_of_held {o : Nat} (ho : 0 < refsT o t) : ∃ w, s.objs o = some w := by
  cases hw : s.objs o with
  | some w => exact ⟨w, rfl⟩
  | none => have := h.alive o hw; have := own h ht o; omega

theorem fresh_cnt : s.cnt s.next = 0 := h.alive _ (h.fresh _ (Nat.le_refl _))

theorem spec_step {op : Op V} {ops : List (Op V)} (hfail : t.failed = false)
    (hops : t.phase.pending ++ t.ops = op :: ops) :
    Spec.step i s.view = Spec.perform s.view i (t.view s.objs) { t.view s.objs with ops := ops } op := by
  unfold Spec.step
  rw [view_at ht]
  have h1 : (t.view s.objs).failed = false := hfail
  have h2 : (t.view s.objs).ops = op :: ops := hops
  simp only [h1, h2]
  simp

/-- A thread stops. -/
theorem good_fail (hspec : Spec.step i s.view = s.view.set i { t.view s.objs with failed := true }) :
    Good i s (s.put i { t with failed := true }) := by
  obtain ⟨h1, h2⟩ := change h ht (t' := { t with failed := true }) (objs' := s.objs) (cnt' := s.cnt) (next' := s.next)
    (fun o => rfl) h.alive (fun o => rfl) h.fresh (h.ok i t ht) (fun _ _ _ _ _ _ => rfl) (fun _ _ _ _ _ _ h => .inl h)
    (fun _ h => h)
  exact ⟨h1, .inr (by rw [hspec]; exact h2)⟩

include hfail

theorem good_cloned {x : Nat} {v : V} {n : Nat} (hp : t.phase = .cloned x v n) :
    Good i s (s.put i { t with hs := t.hs.set x (some n), phase := match t.get x with
          | none => .writing x v
          | some o => .dropping o (some (x, v)) }) := by
  have hok := h.ok i t ht
  simp only [TOk, hp] at hok
  obtain ⟨hn, o, w, hx, ho, hnw⟩ := hok
  have hlt := get_lt hx
  simp only [hx]
  obtain ⟨h1, h2⟩ := change h ht (t' := { t with hs := t.hs.set x (some n), phase := .dropping o (some (x, v)) })
    (objs' := s.objs) (cnt' := s.cnt) (next' := s.next)
    (by
      intro o'
      have := count_set_some (some n) o' hlt
      have hx' : (t.hs[x]?).join = some o := hx
      rw [hx'] at this
      simp only [refsT, hp, phaseRefs]
      omega)
    h.alive (by intro o'; simp [pendT, hp]) h.fresh
    (by
      refine ⟨n, ?_, hn⟩
      simp [Thread.get, hlt])
    (fun _ _ _ _ _ _ => rfl) (fun _ _ _ _ _ _ h => .inl h) (fun _ h => h)
  refine ⟨h1, .inl (h2.trans ?_)⟩
  have : Thread.view s.objs { t with hs := t.hs.set x (some n), phase := .dropping o (some (x, v)) } = t.view s.objs := by
    simp only [Thread.view, hp, Phase.pending, List.map_set, Option.bind_some, hnw]
    rw [set_same]
    simp [get_some hx, ho]
  rw [this]
  exact set_same (view_at ht)

theorem good_dropping {o : Nat} {k : Option (Nat × V)} (hp : t.phase = .dropping o k) :
    Good i s ({ s with cnt := upd s.cnt o (s.cnt o - 1) }.put i
      { t with phase := if s.cnt o = 1 then .deleting o k else after k }) := by
  have hown := own h ht
  have hpr : phaseRefs o t.phase = 1 := by simp [hp, phaseRefs, one]
  have hcpos : 1 ≤ s.cnt o := by have := hown o; unfold refsT at this; omega
  have hra : ∀ o', phaseRefs o' (if s.cnt o = 1 then .deleting o k else after k : Phase V) = 0 := by
    intro o'; split
    · rfl
    · cases k <;> rfl
  obtain ⟨h1, h2⟩ := change h ht (t' := { t with phase := if s.cnt o = 1 then .deleting o k else after k })
    (objs' := s.objs) (cnt' := upd s.cnt o (s.cnt o - 1)) (next' := s.next)
    (by
      intro o'
      have hpre : phaseRefs o' t.phase = one (some o) o' := by rw [hp]; rfl
      simp only [refsT, hra, hpre]
      by_cases e : o' = o
      · subst e; simp [upd, one]; omega
      · have : ¬ o = o' := fun h => e h.symm
        simp [upd, one, e, this])
    (by
      intro o' ho'
      have := h.alive o' ho'
      by_cases e : o' = o
      · subst e; omega
      · simp [upd, e, this])
    (by
      intro o'
      have hpa : pendT o' { t with phase := after k } = 0 := by cases k <;> rfl
      by_cases e : o' = o
      · subst e
        obtain ⟨w, hw⟩ : ∃ w, s.objs o' = some w := by
          cases hw : s.objs o' with
          | some w => exact ⟨w, rfl⟩
          | none => have := h.alive o' hw; omega
        have h0 : pendT o' t = 0 := by simp [pendT, hp]
        rw [h0]
        by_cases hc : s.cnt o' = 1
        · simp [doomed, upd, hw, hc, pendT, one]
        · simp only [if_neg hc, hpa]
          have h1 : ¬ s.cnt o' = 0 := by omega
          have h2 : ¬ s.cnt o' - 1 = 0 := by omega
          simp [doomed, upd, h1, h2]
      · have h0 : pendT o' t = 0 := by simp [pendT, hp]
        have h1 : pendT o' { t with phase := if s.cnt o = 1 then .deleting o k else after k } = 0 := by
          split
          · have : ¬ o = o' := fun h => e h.symm
            simp [pendT, one, this]
          · exact hpa
        rw [h0, h1]
        simp [doomed, upd, e])
    h.fresh
    (by
      have hok := h.ok i t ht
      cases k with
      | none => simp only [after]; split <;> trivial
      | some q =>
        obtain ⟨x, v⟩ := q
        simp only [TOk, hp] at hok
        obtain ⟨n, hx, hn⟩ := hok
        have hne : n ≠ o := by
          rintro rfl
          have := hown n
          have hh : 0 < t.hs.count (some n) := count_get hx
          unfold refsT at this; omega
        have : ∃ n, t.get x = some n ∧ upd s.cnt o (s.cnt o - 1) n = 1 := ⟨n, hx, by simp [upd, hne, hn]⟩
        simp only [after]
        split <;> exact this)
    (fun _ _ _ _ _ _ => rfl)
    (by
      intro j u hj hu o' ho' hc
      have := others h ht hj hu o'
      left
      by_cases e : o' = o
      · subst e; unfold refsT at this ho'; omega
      · simp [upd, e, hc])
    (fun _ h => h)
  refine ⟨h1, .inl (h2.trans ?_)⟩
  have : Thread.view s.objs { t with phase := if s.cnt o = 1 then .deleting o k else after k } = t.view s.objs := by
    simp only [Thread.view, hp]
    cases k with
    | none => split <;> rfl
    | some q => split <;> rfl
  rw [this]
  exact set_same (view_at ht)

theorem good_deleting {o : Nat} {k : Option (Nat × V)} (hp : t.phase = .deleting o k) :
    ∃ w, s.objs o = some w ∧
      Good i s ({ s with objs := upd s.objs o none }.put i { t with phase := after k }) := by
  have hpt : pendT o t = 1 := by simp [pendT, hp, one]
  have hd : doomed s.objs s.cnt o = 1 := by
    have h1 := h.pend o
    have h2 := le_total (pendT o) ht
    have h3 : doomed s.objs s.cnt o ≤ 1 := by unfold doomed; split <;> omega
    omega
  have hd' : (s.objs o).isSome = true ∧ s.cnt o = 0 := by
    unfold doomed at hd; split at hd
    · assumption
    · cases hd
  obtain ⟨ho, hc⟩ := hd'
  obtain ⟨w, hw⟩ := Option.isSome_iff_exists.1 ho
  refine ⟨w, hw, ?_⟩
  have hra : ∀ o', phaseRefs o' (after k : Phase V) = 0 := by intro o'; cases k <;> rfl
  have hobj : ∀ (j : Nat) u, s.ts[j]? = some u → ∀ o', 0 < refsT o' u → upd s.objs o none o' = s.objs o' := by
    intro j u hu o' ho'
    have := own h hu o'
    have : o' ≠ o := by rintro rfl; omega
    simp [upd, this]
  obtain ⟨h1, h2⟩ := change h ht (t' := { t with phase := after k })
    (objs' := upd s.objs o none) (cnt' := s.cnt) (next' := s.next)
    (by intro o'; have hpre : phaseRefs o' t.phase = 0 := by { rw [hp]; rfl }
        simp only [refsT, hra, hpre])
    (by
      intro o' ho'
      by_cases e : o' = o
      · subst e; exact hc
      · simp [upd, e] at ho'; exact h.alive o' ho')
    (by
      intro o'
      have hpa : pendT o' { t with phase := after k } = 0 := by cases k <;> rfl
      rw [hpa]
      by_cases e : o' = o
      · subst e; rw [hpt, hd]; simp [doomed, upd]
      · have : ¬ o = o' := fun h => e h.symm
        simp [doomed, upd, e, pendT, hp, one, this])
    (by
      intro o' ho'
      by_cases e : o' = o
      · simp [upd, e]
      · simp [upd, e, h.fresh o' ho'])
    (by
      have hok := h.ok i t ht
      cases k with
      | none => trivial
      | some q =>
        obtain ⟨x, v⟩ := q
        simp only [TOk, hp] at hok
        exact hok)
    (fun j u _ hu => hobj j u hu)
    (fun _ _ _ _ _ _ h => .inl h)
    (fun _ h => h)
  refine ⟨h1, .inl (h2.trans ?_)⟩
  have : Thread.view (upd s.objs o none) { t with phase := after k } = t.view s.objs := by
    rw [← view_frame (hobj i t ht)]
    simp only [Thread.view, hp]
    cases k with
    | none => rfl
    | some q => rfl
  rw [this]
  exact set_same (view_at ht)

theorem good_writing {x : Nat} {v : V} (hp : t.phase = .writing x v) :
    ∃ o w, t.get x = some o ∧ s.objs o = some w ∧
      Good i s ({ s with objs := upd s.objs o (some v) }.put i { t with phase := .idle }) := by
  have hok := h.ok i t ht
  simp only [TOk, hp] at hok
  obtain ⟨o, hx, hc⟩ := hok
  obtain ⟨w, hw⟩ := alive_of_held h ht (held hx)
  refine ⟨o, w, hx, hw, ?_⟩
  have hsome : ∀ o', upd s.objs o (some v) o' = none → s.objs o' = none := by
    intro o' ho'
    by_cases e : o' = o
    · subst e; simp [upd] at ho'
    · simpa [upd, e] using ho'
  obtain ⟨h1, h2⟩ := change h ht (t' := { t with phase := .idle })
    (objs' := upd s.objs o (some v)) (cnt' := s.cnt) (next' := s.next)
    (by intro o'; simp only [refsT, hp, phaseRefs])
    (fun o' ho' => h.alive o' (hsome o' ho'))
    (by
      intro o'
      simp only [pendT, hp]
      by_cases e : o' = o
      · subst e; simp [doomed, upd, hw]
      · simp [doomed, upd, e])
    (by
      intro o' ho'
      by_cases e : o' = o
      · subst e; rw [h.fresh o' ho'] at hw; cases hw
      · simp [upd, e, h.fresh o' ho'])
    trivial
    (by
      intro j u hj hu o' ho'
      have := others h ht hj hu o'
      have h3 := held hx
      have : o' ≠ o := by rintro rfl; omega
      simp [upd, this])
    (fun _ _ _ _ _ _ h => .inl h)
    (fun _ h => h)
  refine ⟨h1, .inr (h2.trans ?_)⟩
  rw [spec_step h ht (op := .modify x v) (ops := t.ops) hfail (by rw [hp]; rfl)]
  have hg : (t.view s.objs).get x = some w := by rw [view_get, hx]; exact hw
  simp only [Spec.perform, hg]
  congr 1
  have hown := own h ht o
  have hcount : 0 < t.hs.count (some o) := count_get hx
  have hin : t.inbox.map (·.bind (upd s.objs o (some v))) = t.inbox.map (·.bind s.objs) := by
    refine List.map_congr_left fun q hq => ?_
    cases q with
    | none => rfl
    | some o' =>
      have : o' ≠ o := by
        rintro rfl
        have := List.count_pos_iff.2 hq
        unfold refsT at hown; omega
      simp [upd, this]
  have hhs : t.hs.map (·.bind (upd s.objs o (some v))) = (t.hs.map (·.bind s.objs)).set x (some v) := by
    apply List.ext_getElem?
    intro y
    rw [List.getElem?_set, List.getElem?_map, List.getElem?_map, List.length_map]
    by_cases e : x = y
    · subst e
      rw [if_pos rfl, if_pos (get_lt hx), get_some hx]; simp [upd]
    · simp only [if_neg e]
      cases hy : t.hs[y]? with
      | none => rfl
      | some q =>
        cases q with
        | none => rfl
        | some o' =>
          have : o' ≠ o := by
            rintro rfl
            have := two_count e (get_some hx) hy
            unfold refsT at hown; omega
          simp [upd, this]
  simp only [Thread.view, Phase.pending, hin, hhs, List.nil_append]

theorem good_create {v : V} {ops : List (Op V)} (hp : t.phase = .idle) (hops : t.ops = .create v :: ops) :
    Good i s (begin s i t { t with ops := ops } (.create v)) := by
  have hc0 := fresh_cnt h ht
  have ho0 := h.fresh _ (Nat.le_refl s.next)
  have hnh : ∀ (j : Nat) u, s.ts[j]? = some u → ∀ o', 0 < refsT o' u → o' ≠ s.next := by
    rintro j u hu o' ho' rfl
    have := own h hu s.next; omega
  obtain ⟨h1, h2⟩ := change h ht (t' := { t with ops := ops, hs := t.hs ++ [some s.next] })
    (objs' := upd s.objs s.next (some v)) (cnt' := upd s.cnt s.next 1) (next' := s.next + 1)
    (by
      intro o'
      simp only [refsT, List.count_append, List.count_singleton, beq_iff_eq]
      by_cases e : o' = s.next
      · subst e; simp [upd, hc0]; omega
      · have e' : ¬ s.next = o' := fun h => e h.symm
        simp [upd, e, e'])
    (by
      intro o' ho'
      by_cases e : o' = s.next
      · subst e; simp [upd] at ho'
      · simp [upd, e] at ho' ⊢; exact h.alive o' ho')
    (by
      intro o'
      by_cases e : o' = s.next
      · subst e; simp [doomed, upd, ho0, pendT]
      · simp [doomed, upd, e, pendT])
    (by
      intro o' ho'
      have : ¬ o' = s.next := by omega
      simp [upd, this]; exact h.fresh o' (by omega))
    (by simp [TOk, hp])
    (by
      intro j u _ hu o' ho'
      simp [upd, hnh j u hu o' ho'])
    (by
      intro j u _ hu o' ho' hc
      simp [upd, hnh j u hu o' ho', hc])
    (by intro op hop; rw [hops]; exact List.mem_cons_of_mem _ hop)
  refine ⟨h1, .inr (h2.trans ?_)⟩
  rw [spec_step h ht (op := .create v) (ops := ops) hfail (by rw [hp, hops]; rfl)]
  simp only [Spec.perform]
  congr 1
  have hf := view_frame (u := t) (objs := s.objs) (objs' := upd s.objs s.next (some v))
    (fun o' ho' => by simp [upd, hnh i t ht o' ho'])
  simp only [Thread.view, Spec.Thread.mk.injEq] at hf
  simp only [Thread.view, hp, Phase.pending, List.map_append, hf.1, hf.2.1]
  simp [upd]

theorem good_read {x : Nat} {ops : List (Op V)} (hp : t.phase = .idle) (hops : t.ops = .read x :: ops) :
    Good i s (begin s i t { t with ops := ops } (.read x)) := by
  have hspec := spec_step h ht (op := .read x) (ops := ops) hfail (by rw [hp, hops]; rfl)
  simp only [begin]
  cases hx : t.get x with
  | none =>
    refine good_fail h ht ?_
    rw [hspec]; simp only [Spec.perform, view_get, hx, Option.bind_none]
  | some o =>
    obtain ⟨w, hw⟩ := alive_of_held h ht (held hx)
    simp only [hw]
    obtain ⟨h1, h2⟩ := change h ht (t' := { t with ops := ops, out := t.out ++ [w] })
      (objs' := s.objs) (cnt' := s.cnt) (next' := s.next)
      (fun o => rfl) h.alive (fun o => rfl) h.fresh (by simp [TOk, hp]) (fun _ _ _ _ _ _ => rfl)
      (fun _ _ _ _ _ _ h => .inl h) (by intro op hop; rw [hops]; exact List.mem_cons_of_mem _ hop)
    refine ⟨h1, .inr (h2.trans ?_)⟩
    rw [hspec]
    simp only [Spec.perform, view_get, hx, Option.bind_some, hw]
    simp only [Thread.view, hp, Phase.pending, List.nil_append]

theorem good_modify {x : Nat} {v : V} {ops : List (Op V)} (hp : t.phase = .idle) (hops : t.ops = .modify x v :: ops) :
    Good i s (begin s i t { t with ops := ops } (.modify x v)) := by
  have hspec := spec_step h ht (op := .modify x v) (ops := ops) hfail (by rw [hp, hops]; rfl)
  simp only [begin]
  cases hx : t.get x with
  | none =>
    refine good_fail h ht ?_
    rw [hspec]; simp only [Spec.perform, view_get, hx, Option.bind_none]
  | some o =>
    obtain ⟨w, hw⟩ := alive_of_held h ht (held hx)
    simp only [hw]
    have hc0 := fresh_cnt h ht
    have ho0 := h.fresh _ (Nat.le_refl s.next)
    have hnh : ∀ (j : Nat) u, s.ts[j]? = some u → ∀ o', 0 < refsT o' u → o' ≠ s.next := by
      rintro j u hu o' ho' rfl
      have := own h hu s.next; omega
    obtain ⟨h1, h2⟩ := change h ht (t' := { t with ops := ops, phase := .cloned x v s.next })
      (objs' := upd s.objs s.next (some w)) (cnt' := upd s.cnt s.next 1) (next' := s.next + 1)
      (by
        intro o'
        have hpre : phaseRefs o' t.phase = 0 := by rw [hp]; rfl
        simp only [refsT, hpre]
        rw [show phaseRefs o' (Phase.cloned x v s.next) = one (some s.next) o' from rfl]
        by_cases e : o' = s.next
        · subst e; simp [upd, hc0, one]; omega
        · have e' : ¬ s.next = o' := fun h => e h.symm
          simp [upd, e, e', one])
      (by
        intro o' ho'
        by_cases e : o' = s.next
        · subst e; simp [upd] at ho'
        · simp [upd, e] at ho' ⊢; exact h.alive o' ho')
      (by
        intro o'
        by_cases e : o' = s.next
        · subst e; simp [doomed, upd, ho0, pendT, hp]
        · simp [doomed, upd, e, pendT, hp])
      (by
        intro o' ho'
        have : ¬ o' = s.next := by omega
        simp [upd, this]; exact h.fresh o' (by omega))
      (by
        refine ⟨by simp [upd], o, w, hx, ?_, by simp [upd]⟩
        simp [upd, hnh i t ht o (held hx), hw])
      (by
        intro j u _ hu o' ho'
        simp [upd, hnh j u hu o' ho'])
      (by
        intro j u _ hu o' ho' hc
        simp [upd, hnh j u hu o' ho', hc])
      (by intro op hop; rw [hops]; exact List.mem_cons_of_mem _ hop)
    refine ⟨h1, .inl (h2.trans ?_)⟩
    have hf := view_frame (u := t) (objs := s.objs) (objs' := upd s.objs s.next (some w))
      (fun o' ho' => by simp [upd, hnh i t ht o' ho'])
    have : Thread.view (upd s.objs s.next (some w)) { t with ops := ops, phase := .cloned x v s.next } = t.view s.objs := by
      rw [← hf]
      simp [Thread.view, hp, hops, Phase.pending]
    rw [this]
    exact set_same (view_at ht)

theorem inc_frame {y : Nat} {j : Nat} {u : Thread V} (hj : j ≠ i) (hu : s.ts[j]? = some u) {o : Nat}
    (ho : 0 < refsT o u) (hc : s.cnt o = 1) : inc s.cnt (t.get y) o = 1 := by
  rw [inc_eq]
  have h1 := others h ht hj hu o
  have : t.get y ≠ some o := fun e => by have := held e; omega
  simp [one, this, hc]

theorem inc_alive {y : Nat} (o : Nat) (ho : s.objs o = none) : inc s.cnt (t.get y) o = 0 := by
  rw [inc_eq]
  have h1 := own h ht o
  have h2 := h.alive o ho
  have : t.get y ≠ some o := fun e => by have := held e; omega
  simp [one, this, h2]

theorem inc_doomed {y : Nat} (o : Nat) : doomed s.objs (inc s.cnt (t.get y)) o = doomed s.objs s.cnt o := by
  unfold doomed
  rw [inc_eq]
  by_cases e : t.get y = some o
  · have h1 := own h ht o
    have h2 := held e
    have : ¬ s.cnt o = 0 := by omega
    simp [one, e, this]
  · simp [one, e]

theorem good_copy {y : Nat} {ops : List (Op V)} (hp : t.phase = .idle) (hops : t.ops = .copy y :: ops) :
    Good i s (begin s i t { t with ops := ops } (.copy y)) := by
  have hspec := spec_step h ht (op := .copy y) (ops := ops) hfail (by rw [hp, hops]; rfl)
  obtain ⟨h1, h2⟩ := change h ht (t' := { t with ops := ops, hs := t.hs ++ [t.get y] })
    (objs' := s.objs) (cnt' := inc s.cnt (t.get y)) (next' := s.next)
    (by
      intro o
      rw [inc_eq]
      simp only [refsT, List.count_append, List.count_singleton, beq_iff_eq, one]
      omega)
    (inc_alive h ht hfail) (fun o => by rw [inc_doomed h ht hfail]; rfl) h.fresh (by simp [TOk, hp])
    (fun _ _ _ _ _ _ => rfl) (fun j u hj hu o ho hc => .inl (inc_frame h ht hfail hj hu ho hc))
    (by intro op hop; rw [hops]; exact List.mem_cons_of_mem _ hop)
  refine ⟨h1, .inr (h2.trans ?_)⟩
  rw [hspec]
  simp only [Spec.perform, view_get]
  simp [Thread.view, hp, Phase.pending]

theorem good_move {y : Nat} {ops : List (Op V)} (hp : t.phase = .idle) (hops : t.ops = .move y :: ops) :
    Good i s (begin s i t { t with ops := ops } (.move y)) := by
  have hspec := spec_step h ht (op := .move y) (ops := ops) hfail (by rw [hp, hops]; rfl)
  obtain ⟨h1, h2⟩ := change h ht (t' := { t with ops := ops, hs := t.hs.set y none ++ [t.get y] })
    (objs' := s.objs) (cnt' := s.cnt) (next' := s.next)
    (by
      intro o
      have := count_set_none (l := t.hs) y o
      simp only [refsT, List.count_append, List.count_singleton, beq_iff_eq, one, Thread.get] at this ⊢
      omega)
    h.alive (fun o => rfl) h.fresh (by simp [TOk, hp])
    (fun _ _ _ _ _ _ => rfl) (fun _ _ _ _ _ _ h => .inl h)
    (by intro op hop; rw [hops]; exact List.mem_cons_of_mem _ hop)
  refine ⟨h1, .inr (h2.trans ?_)⟩
  rw [hspec]
  simp only [Spec.perform, view_get]
  simp [Thread.view, hp, Phase.pending, List.map_set]

theorem good_assign {x y : Nat} {ops : List (Op V)} (hp : t.phase = .idle) (hops : t.ops = .assign x y :: ops) :
    Good i s (begin s i t { t with ops := ops } (.assign x y)) := by
  have hspec := spec_step h ht (op := .assign x y) (ops := ops) hfail (by rw [hp, hops]; rfl)
  have hl : (t.view s.objs).vals.length = t.hs.length := by simp [Thread.view]
  simp only [begin]
  by_cases hx : x < t.hs.length
  · rw [if_pos hx]
    obtain ⟨h1, h2⟩ := change h ht (t' := { t with ops := ops, hs := t.hs.set x (t.get y), phase := drop (t.get x) })
      (objs' := s.objs) (cnt' := inc s.cnt (t.get y)) (next' := s.next)
      (by
        intro o
        rw [inc_eq]
        have hpre : phaseRefs o t.phase = 0 := by rw [hp]; rfl
        have := count_set_some (t.get y) o hx
        simp only [refsT, phaseRefs_drop, hpre, Thread.get] at this ⊢
        omega)
      (inc_alive h ht hfail)
      (fun o => by
        rw [pend_drop { t with ops := ops, hs := t.hs.set x (t.get y), phase := drop (t.get x) } (t.get x) o rfl,
          inc_doomed h ht hfail]
        simp [pendT, hp])
      h.fresh (tok_drop _ _ _ (t.get x) rfl)
      (fun _ _ _ _ _ _ => rfl) (fun j u hj hu o ho hc => .inl (inc_frame h ht hfail hj hu ho hc))
      (by intro op hop; rw [hops]; exact List.mem_cons_of_mem _ hop)
    refine ⟨h1, .inr (h2.trans ?_)⟩
    rw [hspec]
    simp only [Spec.perform, view_get, hl, if_pos hx]
    simp [Thread.view, pending_drop, List.map_set]
  · rw [if_neg hx]
    refine good_fail h ht ?_
    rw [hspec]; simp only [Spec.perform, hl, if_neg hx]

theorem good_release {x : Nat} {ops : List (Op V)} (hp : t.phase = .idle) (hops : t.ops = .release x :: ops) :
    Good i s (begin s i t { t with ops := ops } (.release x)) := by
  have hspec := spec_step h ht (op := .release x) (ops := ops) hfail (by rw [hp, hops]; rfl)
  obtain ⟨h1, h2⟩ := change h ht (t' := { t with ops := ops, hs := t.hs.set x none, phase := drop (t.get x) })
    (objs' := s.objs) (cnt' := s.cnt) (next' := s.next)
    (by
      intro o
      have hpre : phaseRefs o t.phase = 0 := by rw [hp]; rfl
      have := count_set_none (l := t.hs) x o
      simp only [refsT, phaseRefs_drop, hpre, Thread.get] at this ⊢
      omega)
    h.alive (fun o => by
      rw [pend_drop { t with ops := ops, hs := t.hs.set x none, phase := drop (t.get x) } (t.get x) o rfl]
      simp [pendT, hp]) h.fresh
    (tok_drop _ _ _ (t.get x) rfl)
    (fun _ _ _ _ _ _ => rfl) (fun _ _ _ _ _ _ h => .inl h)
    (by intro op hop; rw [hops]; exact List.mem_cons_of_mem _ hop)
  refine ⟨h1, .inr (h2.trans ?_)⟩
  rw [hspec]
  simp only [Spec.perform]
  simp [Thread.view, pending_drop, List.map_set]

theorem good_receive {ops : List (Op V)} (hp : t.phase = .idle) (hops : t.ops = .receive :: ops) :
    Good i s (begin s i t { t with ops := ops } .receive) := by
  have hspec := spec_step h ht (op := .receive) (ops := ops) hfail (by rw [hp, hops]; rfl)
  simp only [begin]
  cases hin : t.inbox with
  | nil => exact good_same h i
  | cons p r =>
    obtain ⟨h1, h2⟩ := change h ht (t' := { t with ops := ops, hs := t.hs ++ [p], inbox := r })
      (objs' := s.objs) (cnt' := s.cnt) (next' := s.next)
      (by
        intro o
        simp only [refsT, List.count_append, hin, List.count_cons, List.count_nil]
        omega)
      h.alive (fun o => rfl) h.fresh (by simp [TOk, hp])
      (fun _ _ _ _ _ _ => rfl) (fun _ _ _ _ _ _ h => .inl h)
      (by intro op hop; rw [hops]; exact List.mem_cons_of_mem _ hop)
    refine ⟨h1, .inr (h2.trans ?_)⟩
    rw [hspec]
    have : (t.view s.objs).inbox = p.bind s.objs :: r.map (·.bind s.objs) := by simp [Thread.view, hin]
    simp only [Spec.perform, this]
    simp [Thread.view, hp, Phase.pending]

theorem good_send {j y : Nat} {ops : List (Op V)} (hp : t.phase = .idle) (hops : t.ops = .send j y :: ops) :
    Good i s (begin s i t { t with ops := ops } (.send j y)) := by
  have hspec := spec_step h ht (op := .send j y) (ops := ops) hfail (by rw [hp, hops]; rfl)
  obtain ⟨h1, h2⟩ := change h ht (t' := { t with ops := ops })
    (objs' := s.objs) (cnt' := s.cnt) (next' := s.next)
    (fun o => rfl) h.alive (fun o => rfl) h.fresh (by simp [TOk, hp])
    (fun _ _ _ _ _ _ => rfl) (fun _ _ _ _ _ _ h => .inl h)
    (by intro op hop; rw [hops]; exact List.mem_cons_of_mem _ hop)
  have hv : Thread.view s.objs { t with ops := ops } = { t.view s.objs with ops := ops } := by
    simp [Thread.view, hp, Phase.pending]
  have h1' : Inv (s.put i { t with ops := ops }) := h1
  have h2' : (s.put i { t with ops := ops }).view = s.view.set i { t.view s.objs with ops := ops } := by rw [← hv]; exact h2
  have hti : (s.put i { t with ops := ops }).ts[i]? = some { t with ops := ops } := by
    have : i < s.ts.length := by
      rcases Nat.lt_or_ge i s.ts.length with h | h
      · exact h
      · rw [List.getElem?_eq_none h] at ht; cases ht
    simp [St.put, this]
  simp only [begin]
  cases hj : (s.put i { t with ops := ops }).ts[j]? with
  | none =>
    refine good_fail h ht ?_
    have hlen : (s.view.set i { t.view s.objs with ops := ops })[j]? = none := by
      rw [← h2']; simp [St.view, hj]
    rw [hspec]; simp only [Spec.perform, hlen]
  | some u =>
    have hhold : ∀ o, t.get y = some o → 0 < refsT o { t with ops := ops } := fun o e => held (t := { t with ops := ops }) e
    have hcn : (s.put i { t with ops := ops }).cnt = s.cnt := rfl
    have hob : (s.put i { t with ops := ops }).objs = s.objs := rfl
    obtain ⟨h3, h4⟩ := change h1' hj (t' := { u with inbox := u.inbox ++ [t.get y] })
      (objs' := s.objs) (cnt' := inc s.cnt (t.get y)) (next' := s.next)
      (by
        intro o
        rw [inc_eq]
        simp only [refsT, List.count_append, List.count_singleton, beq_iff_eq, one, hcn]
        omega)
      (inc_alive h ht hfail) (fun o => by rw [inc_doomed h ht hfail]; rfl) h.fresh
      (by
        have hok := h1'.ok j u hj
        rw [hcn, hob] at hok
        refine tok_frame (u := u) (objs := s.objs) (cnt := s.cnt) hok (fun _ _ => rfl) ?_
        intro o ho hc
        by_cases e : t.get y = some o
        · -- thread `j` has the only pointer to an object that thread `i` also holds
          by_cases hji : j = i
          · right
            rw [hji, hti] at hj
            rw [← Option.some.inj hj]; exact hp
          · have h5 := others h1' hti hji hj o
            have := hhold o e
            rw [hcn] at h5
            omega
        · left; rw [inc_eq]; simp [one, e, hc])
      (fun _ _ _ _ _ _ => rfl)
      (by
        intro k w hk hw o ho hc
        by_cases e : t.get y = some o
        · by_cases hki : k = i
          · right
            rw [hki, hti] at hw
            rw [← Option.some.inj hw]; exact hp
          · have h5 := others h1' hti hki hw o
            have := hhold o e
            rw [hcn] at h5 hc
            omega
        · left; rw [inc_eq]; simp only [one, e, if_false]; exact hc)
      (fun _ h => h)
    refine ⟨h3, .inr (h4.trans ?_)⟩
    rw [hspec]
    have hlen : (s.view.set i { t.view s.objs with ops := ops })[j]? = some (u.view s.objs) := by
      rw [← h2']; simp [St.view, hj, hob]
    simp only [Spec.perform, hlen, h2', view_get]
    congr 1
    simp [Thread.view]

end

theorem good_step {s : St V} (h : Inv s) (i : Nat) : Good i s (step i s) := by
  unfold step
  cases ht : s.ts[i]? with
  | none => exact good_same h i
  | some t =>
    by_cases hf : t.failed = true
    · simp only [hf, if_true]; exact good_same h i
    · simp only [if_neg hf]
      have hfail : t.failed = false := by simpa using hf
      cases hp : t.phase with
      | cloned x v n => exact good_cloned h ht hfail hp
      | dropping o k => exact good_dropping h ht hfail hp
      | deleting o k =>
        obtain ⟨w, hw, hg⟩ := good_deleting h ht hfail hp
        simp only [hw]; exact hg
      | writing x v =>
        obtain ⟨o, w, hx, hw, hg⟩ := good_writing h ht hfail hp
        simp only [hx, hw]; exact hg
      | idle =>
        cases hops : t.ops with
        | nil => exact good_same h i
        | cons op ops =>
          cases op with
          | create v => have hg := good_create h ht hfail hp hops; rw [hp] at hg; exact hg
          | read x => have hg := good_read h ht hfail hp hops; rw [hp] at hg; exact hg
          | modify x v => exact good_modify h ht hfail hp hops
          | copy y => have hg := good_copy h ht hfail hp hops; rw [hp] at hg; exact hg
          | move y => have hg := good_move h ht hfail hp hops; rw [hp] at hg; exact hg
          | assign x y => exact good_assign h ht hfail hp hops
          | release x => exact good_release h ht hfail hp hops
          | send j y => have hg := good_send h ht hfail hp hops; rw [hp] at hg; exact hg
          | receive => have hg := good_receive h ht hfail hp hops; rw [hp] at hg; exact hg
          | extract x v => exact (h.safe i t ht (.extract x v) (by rw [hops]; exact List.mem_cons_self)).elim

theorem good_run {s : St V} (h : Inv s) (sched : List Nat) :
    Inv (run sched s) ∧ ∃ sub, List.Sublist sub sched ∧ (run sched s).view = Spec.run sub s.view := by
  induction sched generalizing s with
  | nil => exact ⟨h, [], .slnil, rfl⟩
  | cons i r ih =>
    obtain ⟨h1, h2⟩ := good_step h i
    obtain ⟨h3, sub, h4, h5⟩ := ih h1
    refine ⟨h3, ?_⟩
    rcases h2 with h2 | h2
    · exact ⟨sub, h4.cons i, by rw [← h2]; exact h5⟩
    · exact ⟨i :: sub, h4.cons_cons i, by
        show (run r (step i s)).view = Spec.run sub (Spec.step i s.view)
        rw [← h2]; exact h5⟩

theorem access_held {t : Thread V} {o : Nat} {a : Bool} (h : t.access = some (o, a)) :
    (0 < refsT o t ∧ (a = true → (∃ x v, t.phase = .writing x v ∧ t.get x = some o) ∨
      ∃ x v ops, t.ops = .extract x v :: ops)) ∨
    (∃ k, t.phase = .deleting o k) := by
  unfold Thread.access at h
  split at h
  · cases h
  · split at h
    · cases h
    · cases h
    · rename_i o' k hp
      cases h; exact .inr ⟨k, hp⟩
    · rename_i x v hp
      obtain ⟨o', hx, he⟩ := Option.map_eq_some_iff.1 h
      cases he
      exact .inl ⟨held hx, fun _ => .inl ⟨x, v, hp, hx⟩⟩
    · split at h
      · obtain ⟨o', hx, he⟩ := Option.map_eq_some_iff.1 h
        cases he
        exact .inl ⟨held hx, fun e => by cases e⟩
      · obtain ⟨o', hx, he⟩ := Option.map_eq_some_iff.1 h
        cases he
        exact .inl ⟨held hx, fun e => by cases e⟩
      · rename_i x v ops hops
        obtain ⟨o', hx, he⟩ := Option.map_eq_some_iff.1 h
        cases he
        exact .inl ⟨held hx, fun _ => .inr ⟨x, v, ops, hops⟩⟩
      · cases h

theorem no_race_aux {s : St V} (h : Inv s) {i j : Nat} {t u : Thread V} {o : Nat} {b : Bool} (hij : i ≠ j)
    (hi : s.ts[i]? = some t) (hj : s.ts[j]? = some u) (ht : t.access = some (o, true)) (hu : u.access = some (o, b)) :
    False := by
  have hd : ∀ (k : Nat) w, s.ts[k]? = some w → ∀ q, w.phase = .deleting o q → s.cnt o = 0 := by
    intro k w hk q hq
    have h1 := h.pend o
    have h2 := le_total (pendT o) hk
    have h3 : pendT o w = 1 := by simp [pendT, hq, one]
    unfold doomed at h1
    split at h1
    · rename_i h4; exact h4.2
    · omega
  have h2 := two_le_total (refsT o) hij hi hj
  rw [← h.count o] at h2
  rcases access_held ht with ⟨h3, h4⟩ | ⟨q, hq⟩
  · have h1 : s.cnt o = 1 := by
      rcases h4 rfl with ⟨x, v, hp, hx⟩ | ⟨x, v, ops, hops⟩
      · have := h.ok i t hi
        simp only [TOk, hp] at this
        obtain ⟨n, hn, hc⟩ := this
        rw [hx] at hn
        cases hn
        exact hc
      · exact (h.safe i t hi (.extract x v) (by rw [hops]; exact List.mem_cons_self)).elim
    rcases access_held hu with ⟨h5, _⟩ | ⟨q', hq'⟩
    · omega
    · have := hd j u hj q' hq'; omega
  · have h1 := hd i t hi q hq
    rcases access_held hu with ⟨h5, _⟩ | ⟨q', hq'⟩
    · omega
    · have h5 := two_le_total (pendT o) hij hi hj
      have h6 := h.pend o
      have h7 : pendT o t = 1 := by simp [pendT, hq, one]
      have h8 : pendT o u = 1 := by simp [pendT, hq', one]
      have h9 : doomed s.objs s.cnt o ≤ 1 := by unfold doomed; split <;> omega
      omega

/-! ## C101 -/

/-- Threads about to start: their handles, which may share objects, point to objects that exist; the use counts are right. -/
structure Start (s : St V) : Prop where
  count : ∀ o, s.cnt o = (s.ts.map fun t => t.hs.count (some o)).sum
  objs : ∀ o, 0 < s.cnt o ↔ ∃ w, s.objs o = some w
  fresh : ∀ o, s.next ≤ o → s.objs o = none
  good : s.bad = false
  idle : ∀ t ∈ s.ts, t.phase = .idle ∧ t.inbox = [] ∧ t.out = [] ∧ t.failed = false

theorem start_inv {s : St V} (h : Start s) (hs : ∀ t ∈ s.ts, ∀ op ∈ t.ops, op.Safe) : Inv s := by
  refine ⟨fun o => ?_, fun o ho => ?_, fun o => ?_, h.fresh, fun i t ht => ?_, h.good, fun i t ht =>
    hs t (List.mem_of_getElem? ht)⟩
  · rw [h.count o]
    unfold total
    congr 1
    refine List.map_congr_left fun t ht => ?_
    obtain ⟨h1, h2, _⟩ := h.idle t ht
    simp [refsT, h1, h2, phaseRefs]
  · have := (h.objs o).1
    rcases Nat.eq_zero_or_pos (s.cnt o) with hc | hc
    · exact hc
    · obtain ⟨w, hw⟩ := this hc
      rw [ho] at hw; cases hw
  · have h1 : total (pendT o) s.ts = 0 := by
      unfold total
      rw [List.sum_eq_zero_iff_forall_eq_nat]
      intro n hn
      obtain ⟨t, ht, rfl⟩ := List.mem_map.1 hn
      simp [pendT, (h.idle t ht).1]
    rw [h1]
    unfold doomed
    rw [if_neg]
    rintro ⟨h2, h3⟩
    obtain ⟨w, hw⟩ := Option.isSome_iff_exists.1 h2
    have := (h.objs o).2 ⟨w, hw⟩
    omega
  · have := (h.idle t (List.mem_of_getElem? ht)).1
    simp [TOk, this]

/-- C101: without `dynamic_handle_extract` no schedule leads to a data race, and no object is used after it has been deleted or deleted
twice. -/
theorem C101_noRace_partial {s : St V} (h : Start s) (hs : ∀ t ∈ s.ts, ∀ op ∈ t.ops, op.Safe) (sched : List Nat) :
    ¬ Race (run sched s) ∧ (run sched s).bad = false := by
  have hi := (good_run (start_inv h hs) sched).1
  refine ⟨?_, hi.good⟩
  rintro ⟨i, j, t, u, o, a, b, hij, ht, hu, hat, hau, hab⟩
  rcases hab with rfl | rfl
  · exact no_race_aux hi hij ht hu hat hau
  · exact no_race_aux hi (fun e => hij e.symm) hu ht hau hat

/-- C101: without `dynamic_handle_extract` each thread sees its handles as if they contained values of their own: what the threads
have read, and what their handles contain, is what the same operations on values give, in an order in which the threads took their steps. -/
theorem C101_values_partial {s : St V} (h : Start s) (hs : ∀ t ∈ s.ts, ∀ op ∈ t.ops, op.Safe) (sched : List Nat) :
    ∃ sub, List.Sublist sub sched ∧ (run sched s).view = Spec.run sub s.view :=
  (good_run (start_inv h hs) sched).2

/-- C101: an object exists as long as a handle points to it, or a thread is about to give it up. -/
theorem C101_freed_partial {s : St V} (h : Start s) (hs : ∀ t ∈ s.ts, ∀ op ∈ t.ops, op.Safe) (sched : List Nat)
    (hidle : ∀ t ∈ (run sched s).ts, t.phase = .idle) (o : Nat) :
    (∃ w, (run sched s).objs o = some w) ↔ ∃ t ∈ (run sched s).ts, some o ∈ t.hs ∨ some o ∈ t.inbox := by
  have hi := (good_run (start_inv h hs) sched).1
  generalize run sched s = s' at *
  have hp : total (pendT o) s'.ts = 0 := by
    unfold total
    rw [List.sum_eq_zero_iff_forall_eq_nat]
    intro n hn
    obtain ⟨t, ht, rfl⟩ := List.mem_map.1 hn
    simp [pendT, hidle t ht]
  have hd := hi.pend o
  rw [hp] at hd
  constructor
  · rintro ⟨w, hw⟩
    have hc : s'.cnt o ≠ 0 := by
      intro hc
      simp [doomed, hw, hc] at hd
    rw [hi.count o] at hc
    have : ¬ ∀ n ∈ s'.ts.map (refsT o), n = 0 := fun hall => hc (List.sum_eq_zero_iff_forall_eq_nat.2 hall)
    simp only [List.mem_map, forall_exists_index, and_imp, forall_apply_eq_imp_iff₂, Classical.not_forall] at this
    obtain ⟨t, ht, hr⟩ := this
    refine ⟨t, ht, ?_⟩
    have : phaseRefs o t.phase = 0 := by rw [hidle t ht]; rfl
    rw [← List.count_pos_iff, ← List.count_pos_iff]
    unfold refsT at hr
    omega
  · rintro ⟨t, ht, hm⟩
    obtain ⟨i, hi'⟩ := List.getElem?_of_mem ht
    refine alive_of_held hi hi' ?_
    rw [← List.count_pos_iff, ← List.count_pos_iff] at hm
    unfold refsT
    omega

/-! ### A thread by itself -/

/-- What a program reads if its handles contain the values `vals` and there are no other threads; `none` if it uses an empty handle or
waits for other threads. -/
def alone : List (Option V) → List (Op V) → Option (List V)
  | _, [] => some []
  | vals, .create v :: r => alone (vals ++ [some v]) r
  | vals, .read x :: r => (vals[x]?).join.bind fun w => (alone vals r).map (w :: ·)
  | vals, .modify x v :: r => (vals[x]?).join.bind fun _ => alone (vals.set x (some v)) r
  | vals, .extract x v :: r => (vals[x]?).join.bind fun _ => alone (vals.set x (some v)) r
  | vals, .copy y :: r => alone (vals ++ [(vals[y]?).join]) r
  | vals, .move y :: r => alone (vals.set y none ++ [(vals[y]?).join]) r
  | vals, .assign x y :: r => if x < vals.length then alone (vals.set x (vals[y]?).join) r else none
  | vals, .release x :: r => alone (vals.set x none) r
  | vals, .send _ _ :: r => alone vals r
  | _, .receive :: _ => none

/-- The values still to be read follow the values read. -/
def Rest (l : List V) (t : Spec.Thread V) : Prop :=
  ∃ r, l = t.out ++ r ∧ (t.failed = true ∨ alone t.vals t.ops = some r)

theorem rest_inbox {l : List V} {t : Spec.Thread V} (h : Rest l t) (b : List (Option V)) : Rest l { t with inbox := b } := h

theorem spec_get_set {s : List (Spec.Thread V)} {i k : Nat} {a : Spec.Thread V} {u : Spec.Thread V}
    (h : (s.set i a)[k]? = some u) : (i = k ∧ u = a) ∨ s[k]? = some u := by
  rw [List.getElem?_set] at h
  split at h
  · rename_i e
    split at h
    · exact .inl ⟨e, (Option.some.inj h).symm⟩
    · cases h
  · exact .inr h

theorem rest_step {l : List V} {s : List (Spec.Thread V)} {k : Nat} (h : ∀ u, s[k]? = some u → Rest l u) (i : Nat) :
    ∀ u, (Spec.step i s)[k]? = some u → Rest l u := by
  intro u hu
  unfold Spec.step at hu
  cases ht : s[i]? with
  | none => rw [ht] at hu; exact h u hu
  | some t =>
    rw [ht] at hu
    simp only at hu
    split at hu
    · exact h u hu
    · rename_i hf
      have hf' : t.failed = false := by simpa using hf
      cases ho : t.ops with
      | nil => simp only [ho] at hu; exact h u hu
      | cons op ops =>
        simp only [ho] at hu
        -- a change of thread `i` only
        have one : ∀ a : Spec.Thread V, (i = k → Rest l t → Rest l a) → (s.set i a)[k]? = some u → Rest l u := by
          intro a ha hs
          rcases spec_get_set hs with ⟨e, rfl⟩ | hs
          · exact ha e (h t (by rw [← e]; exact ht))
          · exact h u hs
        have fail : (s.set i { t with failed := true })[k]? = some u → Rest l u :=
          one { t with failed := true } fun _ ⟨r, hr, _⟩ => ⟨r, hr, .inl rfl⟩
        have key : ∀ (vals : List (Option V)) (out : List V),
            (∀ r, alone t.vals (op :: ops) = some r → ∃ r', alone vals ops = some r' ∧ t.out ++ r = out ++ r') →
            Rest l t → Rest l ⟨vals, t.inbox, ops, out, t.failed⟩ := by
          rintro vals out hr ⟨r, h2, hr' | h1⟩
          · rw [hf'] at hr'; cases hr'
          · rw [ho] at h1
            obtain ⟨r', h3, h4⟩ := hr r h1
            exact ⟨r', by rw [h2, h4], .inr h3⟩
        cases op with
        | create v => exact one _ (fun _ => key _ _ fun r hr => ⟨r, hr, rfl⟩) hu
        | read x =>
          simp only [Spec.perform] at hu
          split at hu
          · exact fail hu
          · rename_i w hw
            refine one _ (fun _ => key _ _ fun r hr => ?_) hu
            have hw' : (t.vals[x]?).join = some w := hw
            simp only [alone, hw', Option.bind_some, Option.map_eq_some_iff] at hr
            obtain ⟨r', h1, h2⟩ := hr
            exact ⟨r', h1, by rw [← h2]; simp⟩
        | modify x v =>
          simp only [Spec.perform] at hu
          split at hu
          · exact fail hu
          · rename_i w hw
            refine one _ (fun _ => key _ _ fun r hr => ?_) hu
            have hw' : (t.vals[x]?).join = some w := hw
            simp only [alone, hw', Option.bind_some] at hr
            exact ⟨r, hr, rfl⟩
        | extract x v =>
          simp only [Spec.perform] at hu
          split at hu
          · exact fail hu
          · rename_i w hw
            refine one _ (fun _ => key _ _ fun r hr => ?_) hu
            have hw' : (t.vals[x]?).join = some w := hw
            simp only [alone, hw', Option.bind_some] at hr
            exact ⟨r, hr, rfl⟩
        | copy y => exact one _ (fun _ => key _ _ fun r hr => ⟨r, hr, rfl⟩) hu
        | move y => exact one _ (fun _ => key _ _ fun r hr => ⟨r, hr, rfl⟩) hu
        | assign x y =>
          simp only [Spec.perform] at hu
          split at hu
          · rename_i hx
            refine one _ (fun _ => key _ _ fun r hr => ?_) hu
            simp only [alone, if_pos hx] at hr
            exact ⟨r, hr, rfl⟩
          · exact fail hu
        | release x => exact one _ (fun _ => key _ _ fun r hr => ⟨r, hr, rfl⟩) hu
        | send j y =>
          simp only [Spec.perform] at hu
          split at hu
          · exact fail hu
          · rename_i w hw
            have hself : ∀ u, (s.set i { t with ops := ops })[k]? = some u → Rest l u := by
              intro u' hu'
              rcases spec_get_set hu' with ⟨e, rfl⟩ | hs
              · exact key t.vals t.out (fun r hr => ⟨r, hr, rfl⟩) (h t (by rw [← e]; exact ht))
              · exact h u' hs
            rcases spec_get_set hu with ⟨e, rfl⟩ | hs
            · exact rest_inbox (hself w (by rw [← e]; exact hw)) _
            · exact hself u hs
        | receive =>
          simp only [Spec.perform] at hu
          split at hu
          · exact h u hu
          · refine one _ (fun _ hr => ?_) hu
            rcases hr with ⟨r, _, hr | h1⟩
            · rw [hf'] at hr; cases hr
            · rw [ho] at h1; simp [alone] at h1

theorem rest_run {l : List V} {s : List (Spec.Thread V)} {k : Nat} (sched : List Nat) (h : ∀ u, s[k]? = some u → Rest l u) :
    ∀ u, (Spec.run sched s)[k]? = some u → Rest l u := by
  induction sched generalizing s with
  | nil => exact h
  | cons i r ih => exact ih (rest_step h i)

/-- C101: a thread that does not wait for others and does not use empty handles reads, at every moment, the beginning of what it would read
if it were alone; at the end, all of it. -/
theorem C101_alone_partial {s : St V} (h : Start s) (hs : ∀ t ∈ s.ts, ∀ op ∈ t.ops, op.Safe) (sched : List Nat)
    {k : Nat} {t u : Thread V} (ht : s.ts[k]? = some t) (hu : (run sched s).ts[k]? = some u) {l : List V}
    (hl : alone (t.hs.map (·.bind s.objs)) t.ops = some l) :
    (∃ r, l = u.out ++ r) ∧ (u.failed = false → u.phase = .idle → u.ops = [] → u.out = l) := by
  obtain ⟨sub, _, hv⟩ := C101_values_partial h hs sched
  have hidle := h.idle t (List.mem_of_getElem? ht)
  have h0 : ∀ w, s.view[k]? = some w → Rest l w := by
    intro w hw
    rw [view_at ht] at hw
    rw [← Option.some.inj hw]
    refine ⟨l, ?_, .inr ?_⟩
    · simp [Thread.view, hidle.2.2.1]
    · simp only [Thread.view, hidle.1, Phase.pending, List.nil_append]; exact hl
  have h1 := rest_run sub h0 (u.view (run sched s).objs) (by rw [← hv]; exact view_at hu)
  obtain ⟨r, h2, h1⟩ := h1
  refine ⟨⟨r, h2⟩, fun hf hp ho => ?_⟩
  rcases h1 with h1 | h1
  · have : u.failed = true := h1
    rw [hf] at this; cases this
  · simp only [Thread.view, hp, ho, Phase.pending, List.append_nil, alone, Option.some.injEq] at h1
    rw [← h1] at h2
    simpa [Thread.view] using h2.symm

/-! ### Progress -/

def Phase.weight : Phase V → Nat
  | .idle => 0
  | .writing _ _ => 1
  | .deleting _ _ => 2
  | .dropping _ _ => 3
  | .cloned _ _ _ => 4

/-- A bound for the number of steps of a thread. -/
def Thread.weight (t : Thread V) : Nat := 5 * t.ops.length + t.phase.weight

theorem after_weight (k : Option (Nat × V)) : (after k).weight ≤ 1 := by cases k <;> simp [after, Phase.weight]

theorem drop_weight (p : Option Nat) : (drop p : Phase V).weight ≤ 3 := by cases p <;> simp [drop, Phase.weight]

theorem put_get {s : St V} {i k : Nat} {a u : Thread V} (h : (s.put i a).ts[k]? = some u) :
    (i = k ∧ u = a) ∨ s.ts[k]? = some u := by
  simp only [St.put, List.getElem?_set] at h
  split at h
  · rename_i e
    split at h
    · exact .inl ⟨e, (Option.some.inj h).symm⟩
    · cases h
  · exact .inr h

/-- The steps of other threads put nothing but handles in the queue. -/
theorem other_step {s : St V} {i k : Nat} (hik : i ≠ k) {u u' : Thread V} (hu : s.ts[k]? = some u)
    (hu' : (step i s).ts[k]? = some u') : ∃ b, u' = { u with inbox := b } := by
  have same : ∀ w, s.ts[k]? = some w → ∃ b, w = { u with inbox := b } := by
    intro w hw
    rw [hu] at hw
    exact ⟨u.inbox, (Option.some.inj hw).symm⟩
  have one : ∀ (s' : St V) (a : Thread V), s'.ts = s.ts → (s'.put i a).ts[k]? = some u' → ∃ b, u' = { u with inbox := b } := by
    intro s' a hs' h
    rcases put_get h with ⟨e, _⟩ | h
    · exact absurd e hik
    · rw [hs'] at h; exact same u' h
  unfold step at hu'
  cases ht : s.ts[i]? with
  | none => rw [ht] at hu'; exact same u' hu'
  | some t =>
    rw [ht] at hu'
    simp only at hu'
    split at hu'
    · exact same u' hu'
    · split at hu'
      · exact one _ _ rfl hu'
      · exact one _ _ rfl hu'
      · split at hu'
        · exact same u' hu'
        · exact one _ _ rfl hu'
      · split at hu'
        · exact same u' hu'
        · split at hu'
          · exact same u' hu'
          · exact one _ _ rfl hu'
      · split at hu'
        · exact same u' hu'
        · rename_i op ops _
          cases op with
          | create v => exact one _ _ rfl hu'
          | read x =>
            simp only [begin] at hu'
            split at hu'
            · exact one _ _ rfl hu'
            · split at hu'
              · exact same u' hu'
              · exact one _ _ rfl hu'
          | modify x v =>
            simp only [begin] at hu'
            split at hu'
            · exact one _ _ rfl hu'
            · split at hu'
              · exact same u' hu'
              · exact one _ _ rfl hu'
          | extract x v =>
            simp only [begin] at hu'
            split at hu'
            · exact one _ _ rfl hu'
            · split at hu'
              · exact same u' hu'
              · exact one _ _ rfl hu'
          | copy y => exact one _ _ rfl hu'
          | move y => exact one _ _ rfl hu'
          | assign x y =>
            simp only [begin] at hu'
            split at hu' <;> exact one _ _ rfl hu'
          | release x => exact one _ _ rfl hu'
          | receive =>
            simp only [begin] at hu'
            split at hu'
            · exact same u' hu'
            · exact one _ _ rfl hu'
          | send j y =>
            simp only [begin] at hu'
            split at hu'
            · exact one _ _ rfl hu'
            · rename_i w hw
              rcases put_get hu' with ⟨e, rfl⟩ | hs
              · rw [e] at hw
                rcases put_get hw with ⟨e', _⟩ | hw
                · exact absurd e' hik
                · obtain ⟨b, rfl⟩ := same w hw
                  exact ⟨_, rfl⟩
              · exact one { s with cnt := inc s.cnt (t.get y) } _ rfl hs

/-- A thread with nothing left to do. -/
def Thread.Done (t : Thread V) : Prop := t.failed = true ∨ (t.phase = .idle ∧ t.ops = [])

theorem own_step {s : St V} {i : Nat} {t t' : Thread V} (ht : s.ts[i]? = some t) (hf : ∀ op ∈ t.ops, op ≠ .receive)
    (hb : (step i s).bad = false) (hd : ¬ t.Done) (ht' : (step i s).ts[i]? = some t') :
    (t'.failed = true ∨ t'.weight < t.weight) ∧ ∀ op ∈ t'.ops, op ≠ .receive := by
  have hfl : t.failed = false := by
    cases h : t.failed with
    | false => rfl
    | true => exact absurd (.inl h) hd
  have one : ∀ (s' : St V) (a : Thread V), s'.ts = s.ts → (s'.put i a).ts[i]? = some t' →
      ((a.failed = true ∨ a.weight < t.weight) ∧ ∀ op ∈ a.ops, op ≠ .receive) →
      (t'.failed = true ∨ t'.weight < t.weight) ∧ ∀ op ∈ t'.ops, op ≠ .receive := by
    intro s' a hs' h ha
    have hi : i < s.ts.length := (List.getElem?_eq_some_iff.1 ht).1
    simp only [St.put, hs', List.getElem?_set_self hi] at h
    rw [← Option.some.inj h]
    exact ha
  have wt : t.weight = 5 * t.ops.length + t.phase.weight := rfl
  unfold step at ht' hb
  rw [ht] at ht' hb
  simp only [hfl, Bool.false_eq_true, if_false] at ht' hb
  cases hp : t.phase with
  | cloned x v n =>
    simp only [hp] at ht'
    refine one _ _ rfl ht' ⟨.inr ?_, hf⟩
    rw [wt, hp]
    show 5 * t.ops.length + Phase.weight (match t.get x with | none => _ | some o => _) < _
    cases t.get x <;> simp [Phase.weight]
  | dropping o k =>
    simp only [hp] at ht'
    refine one _ _ rfl ht' ⟨.inr ?_, hf⟩
    rw [wt, hp]
    show 5 * t.ops.length + Phase.weight (if _ then _ else _) < _
    have := after_weight k
    show _ < 5 * t.ops.length + 3
    split
    · simp [Phase.weight]
    · omega
  | deleting o k =>
    simp only [hp] at ht' hb
    cases ho : s.objs o with
    | none => simp [ho] at hb
    | some w =>
      simp only [ho] at ht'
      refine one _ _ rfl ht' ⟨.inr ?_, hf⟩
      rw [wt, hp]
      show 5 * t.ops.length + Phase.weight (after k) < _
      have := after_weight k
      show _ < 5 * t.ops.length + 2
      omega
  | writing x v =>
    simp only [hp] at ht' hb
    cases hx : t.get x with
    | none => simp [hx] at hb
    | some o =>
      simp only [hx] at ht' hb
      cases ho : s.objs o with
      | none => simp [ho] at hb
      | some w =>
        simp only [ho] at ht'
        refine one _ _ rfl ht' ⟨.inr ?_, hf⟩
        rw [wt, hp]
        show 5 * t.ops.length + Phase.weight .idle < _
        simp [Phase.weight]
  | idle =>
    simp only [hp] at ht' hb
    cases ho : t.ops with
    | nil => exact absurd (.inr ⟨hp, ho⟩) hd
    | cons op ops =>
      simp only [ho] at ht' hb
      have hr : ∀ op ∈ ops, op ≠ .receive := fun o h => hf o (by rw [ho]; exact List.mem_cons_of_mem _ h)
      have fl : (({ t with failed := true } : Thread V).failed = true ∨ ({ t with failed := true } : Thread V).weight < t.weight) ∧
          ∀ op ∈ ({ t with failed := true } : Thread V).ops, op ≠ .receive := ⟨.inl rfl, hf⟩
      have next : ∀ (hs : List (Option Nat)) (ib : List (Option Nat)) (ph : Phase V) (out : List V) (fa : Bool), ph.weight ≤ 4 →
          ((⟨hs, ib, ops, ph, out, fa⟩ : Thread V).failed = true ∨ (⟨hs, ib, ops, ph, out, fa⟩ : Thread V).weight < t.weight) ∧
          ∀ op ∈ (⟨hs, ib, ops, ph, out, fa⟩ : Thread V).ops, op ≠ .receive := by
        intro hs ib ph out fa hw
        refine ⟨.inr ?_, hr⟩
        rw [wt, ho, hp]
        show 5 * ops.length + ph.weight < 5 * (ops.length + 1) + 0
        omega
      have z : (Phase.weight (.idle : Phase V)) ≤ 4 := by simp [Phase.weight]
      have dr : ∀ p, (drop p : Phase V).weight ≤ 4 := fun p => Nat.le_succ_of_le (drop_weight p)
      cases op with
      | create v => exact one _ _ rfl ht' (next _ _ _ _ _ z)
      | read x =>
        simp only [begin] at ht' hb
        cases hx : t.get x with
        | none => simp only [hx] at ht'; exact one _ _ rfl ht' (by simpa [ho] using fl)
        | some o =>
          simp only [hx] at ht' hb
          cases hO : s.objs o with
          | none => simp [hO] at hb
          | some w => simp only [hO] at ht'; exact one _ _ rfl ht' (next _ _ _ _ _ z)
      | modify x v =>
        simp only [begin] at ht' hb
        cases hx : t.get x with
        | none => simp only [hx] at ht'; exact one _ _ rfl ht' (by simpa [ho] using fl)
        | some o =>
          simp only [hx] at ht' hb
          cases hO : s.objs o with
          | none => simp [hO] at hb
          | some w => simp only [hO] at ht'; exact one _ _ rfl ht' (next _ _ _ _ _ (by simp [Phase.weight]))
      | extract x v =>
        simp only [begin] at ht' hb
        cases hx : t.get x with
        | none => simp only [hx] at ht'; exact one _ _ rfl ht' (by simpa [ho] using fl)
        | some o =>
          simp only [hx] at ht' hb
          cases hO : s.objs o with
          | none => simp [hO] at hb
          | some w => simp only [hO] at ht'; exact one _ _ rfl ht' (next _ _ _ _ _ z)
      | copy y => exact one _ _ rfl ht' (next _ _ _ _ _ z)
      | move y => exact one _ _ rfl ht' (next _ _ _ _ _ z)
      | assign x y =>
        simp only [begin] at ht'
        split at ht'
        · exact one _ _ rfl ht' (next _ _ _ _ _ (dr _))
        · exact one _ _ rfl ht' (by simpa [ho] using fl)
      | release x => exact one _ _ rfl ht' (next _ _ _ _ _ (dr _))
      | receive => exact absurd rfl (hf .receive (by rw [ho]; exact List.mem_cons_self))
      | send j y =>
        simp only [begin] at ht'
        have hi : i < s.ts.length := (List.getElem?_eq_some_iff.1 ht).1
        split at ht'
        · exact one _ _ rfl ht' (by simpa [ho] using fl)
        · rename_i u hu
          rcases put_get ht' with ⟨e, rfl⟩ | hs
          · rw [e] at hu
            simp only [St.put, List.getElem?_set_self hi, Option.some.injEq] at hu
            rw [← hu]
            exact next _ _ _ _ _ z
          · exact one { s with cnt := inc s.cnt (t.get y) } _ rfl hs (next _ _ _ _ _ z)

theorem step_length (i : Nat) (s : St V) : (step i s).ts.length = s.ts.length := by
  unfold step
  split
  · rfl
  · split
    · rfl
    · split
      · simp [St.put]
      · simp [St.put]
      · split <;> simp [St.put]
      · split
        · rfl
        · split <;> simp [St.put]
      · split
        · rfl
        · rename_i op _ _
          cases op <;> simp only [begin] <;> (repeat' split) <;> simp [St.put]

theorem done_step {s : St V} {i k : Nat} {t t' : Thread V} (ht : s.ts[k]? = some t) (hd : t.Done)
    (ht' : (step i s).ts[k]? = some t') : t'.Done := by
  by_cases hik : i = k
  · subst hik
    have : (step i s).ts = s.ts := by
      unfold step
      rw [ht]
      rcases hd with h | ⟨h1, h2⟩
      · simp [h]
      · simp only [h1, h2]
        split <;> rfl
    rw [this, ht] at ht'
    rw [← Option.some.inj ht']
    exact hd
  · obtain ⟨b, rfl⟩ := other_step hik ht ht'
    exact hd

theorem done_run {s : St V} (sched : List Nat) {k : Nat} {t t' : Thread V} (ht : s.ts[k]? = some t) (hd : t.Done)
    (ht' : (run sched s).ts[k]? = some t') : t'.Done := by
  induction sched generalizing s t with
  | nil =>
    have : s.ts[k]? = some t' := ht'
    rw [ht] at this
    rw [← Option.some.inj this]
    exact hd
  | cons i r ih =>
    have hk : k < (step i s).ts.length := by
      rw [step_length]; exact (List.getElem?_eq_some_iff.1 ht).1
    exact ih (List.getElem?_eq_getElem hk) (done_step ht hd (List.getElem?_eq_getElem hk)) ht'

theorem finish_aux {s : St V} (h : Inv s) (sched : List Nat) {k : Nat} {t t' : Thread V} (ht : s.ts[k]? = some t)
    (hf : ∀ op ∈ t.ops, op ≠ .receive) (hw : t.weight ≤ sched.count k) (ht' : (run sched s).ts[k]? = some t') : t'.Done := by
  induction sched generalizing s t with
  | nil =>
    have e : s.ts[k]? = some t' := ht'
    rw [ht] at e
    rw [← Option.some.inj e]
    have hz : t.weight = 0 := by simpa using hw
    unfold Thread.weight at hz
    refine .inr ⟨?_, List.eq_nil_of_length_eq_zero (by omega)⟩
    cases hp : t.phase with
    | idle => rfl
    | _ => rw [hp] at hz; simp [Phase.weight] at hz
  | cons i r ih =>
    have hk : k < (step i s).ts.length := by
      rw [step_length]; exact (List.getElem?_eq_some_iff.1 ht).1
    have hi' := (good_step h i).1
    have hn := List.getElem?_eq_getElem hk
    by_cases hd : t.Done
    · exact done_run r hn (done_step ht hd hn) ht'
    · by_cases hik : i = k
      · subst hik
        have := own_step ht hf hi'.good hd hn
        rcases this.1 with h1 | h1
        · exact done_run r hn (.inl h1) ht'
        · refine ih hi' hn this.2 ?_ ht'
          rw [List.count_cons_self] at hw
          omega
      · obtain ⟨b, hb⟩ := other_step hik ht hn
        refine ih hi' hn (by rw [hb]; exact hf) ?_ ht'
        rw [List.count_cons_of_ne hik] at hw
        rw [hb]
        exact hw

/-- C101: no thread waits for another, except in `receive`: each operation of a thread is finished after at most five of its steps, whatever the
other threads do. -/
theorem C101_finish_partial {s : St V} (h : Start s) (hs : ∀ t ∈ s.ts, ∀ op ∈ t.ops, op.Safe) (sched : List Nat)
    {k : Nat} {t u : Thread V} (ht : s.ts[k]? = some t) (hu : (run sched s).ts[k]? = some u)
    (hf : ∀ op ∈ t.ops, op ≠ .receive) (hw : 5 * t.ops.length ≤ sched.count k) :
    u.failed = true ∨ (u.phase = .idle ∧ u.ops = []) := by
  refine finish_aux (start_inv h hs) sched ht hf ?_ hu
  have := (h.idle t (List.mem_of_getElem? ht)).1
  simp only [Thread.weight, this, Phase.weight]
  omega

/-! ### Two threads with one object -/

/-- Two threads with a handle to an object each, of value `v`, and the given programs. -/
def two (v : V) (p q : List (Op V)) : St V where
  objs := upd (fun _ => none) 0 (some v)
  cnt := upd (fun _ => 0) 0 2
  next := 1
  ts := [⟨[some 0], [], p, .idle, [], false⟩, ⟨[some 0], [], q, .idle, [], false⟩]
  bad := false

theorem two_start (v : V) (p q : List (Op V)) : Start (two v p q) := by
  refine ⟨fun o => ?_, fun o => ?_, fun o ho => ?_, rfl, fun t ht => ?_⟩
  · by_cases e : o = 0
    · subst e; simp [two, upd]
    · have : ¬ 0 = o := fun h => e h.symm
      simp [two, upd, e, this]
  · by_cases e : o = 0
    · subst e; simp [two, upd]
    · simp [two, upd, e]
  · have : o ≠ 0 := by
      have : 1 ≤ o := ho
      omega
    simp [two, upd, this]
  · simp only [two, List.mem_cons, List.not_mem_nil, or_false] at ht
    rcases ht with rfl | rfl <;> exact ⟨rfl, rfl, rfl, rfl⟩

/-- C101 is false with `dynamic_handle_extract` (handle.hpp:160-169): the object is changed without having been cloned. The
change races with every access of the object by another thread, and that thread reads the new value, which it cannot read
if its handle has a value of its own. -/
theorem C101_extract_refuted (v w : V) (hvw : v ≠ w) (p q : List (Op V)) :
    Start (two v (.extract 0 w :: p) (.read 0 :: q)) ∧
    Race (two v (.extract 0 w :: p) (.read 0 :: q)) ∧
    Race (two v (.extract 0 w :: p) (.extract 0 w :: q)) ∧
    ((run [0, 1] (two v (.extract 0 w :: p) (.read 0 :: q))).ts[1]?).map (·.out) = some [w] ∧
    ∀ sched, ((Spec.run sched (two v (.extract 0 w :: p) [.read 0]).view)[1]?).map (·.out) ≠ some [w] := by
  refine ⟨two_start _ _ _, ?_, ?_, ?_, fun sched => ?_⟩
  · exact ⟨0, 1, _, _, 0, true, false, by decide, rfl, rfl, rfl, rfl, .inl rfl⟩
  · exact ⟨0, 1, _, _, 0, true, true, by decide, rfl, rfl, rfl, rfl, .inl rfl⟩
  · simp [run, step, two, begin, St.put, Thread.get, upd]
  · have h0 : ∀ u, (two v (.extract 0 w :: p) [.read 0]).view[1]? = some u → Rest [v] u := by
      intro u hu
      simp only [two, St.view, List.map_cons, List.map_nil, List.getElem?_cons_succ, List.getElem?_cons_zero,
        Option.some.injEq] at hu
      rw [← hu]
      exact ⟨[v], rfl, .inr (by simp [Thread.view, Phase.pending, alone, upd])⟩
    intro hc
    obtain ⟨u, hu, hw⟩ := Option.map_eq_some_iff.1 hc
    obtain ⟨r, hr, _⟩ := rest_run sched h0 u hu
    rw [hw] at hr
    exact hvw (List.cons.inj hr).1

/-! ### Examples -/

/-- One thread changes the shared object twice and sends a copy; the other reads before and after it receives the copy. -/
def sample : St Nat :=
  two 5 [.modify 0 7, .send 1 0, .modify 0 8, .read 0, .release 0] [.read 0, .receive, .read 1, .copy 1, .modify 2 9, .read 1, .read 2]

example : Start sample ∧ (∀ t ∈ sample.ts, ∀ op ∈ t.ops, op.Safe) :=
  ⟨two_start _ _ _, by simp [sample, two, Op.Safe]⟩

/-- A schedule with which the accesses of the two threads alternate. -/
def alternate : List Nat := (List.replicate 40 [0, 1]).flatten

example : (run alternate sample).ts.map (fun t => (t.out, t.ops.length, t.failed)) =
    [([8], 0, false), ([5, 7, 7, 9], 0, false)] := by decide +kernel

-- both objects of the first thread have been deleted; the count of the sent object is one
example : (List.range 6).map (run alternate sample).cnt = [1, 1, 0, 1, 0, 0] ∧
    (List.range 6).map (run alternate sample).objs = [some 5, some 7, none, some 9, none, none] := by decide +kernel

-- a thread without `receive`, and what it reads
example : alone [some 5] [.modify 0 7, .send 1 0, .modify 0 8, .read 0, .release 0] = some [8] := by decide

-- an access to an object that another thread may read, and no race: the first step of `modify` only reads
example : (two 5 [.modify 0 7] [.read 0]).ts.map (·.access) = [some (0, false), some (0, false)] := by decide +kernel

end Helper.Handle.Threads
