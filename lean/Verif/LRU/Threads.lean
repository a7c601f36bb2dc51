import Verif.LRU.Recover
/-!
# Threads looking up one LRUCache (lru_cache.hpp:56-76), property C121

Several threads call `has_label`, `get` and `age` of one cache; none of them calls `put`. `get` is split into its accesses of the ages in
memory: the loads of `other.second.age < e->second.age`, the load and the store of `other.second.age++` and the store of
`e->second.age = 0`. A schedule is the list of the threads that take a step. Labels, values and the nodes of the map are only read by
these calls, so `find` and the use of the values take no step of their own. The left operand of `<` is loaded first (C++ leaves the order
open). Every access of an age is recorded. The class has no synchronisation, so an access of one thread and a store of another form a
data race, which is undefined in C++; the model also shows what happens if the accesses are taken one by one.
-/
set_option linter.unusedSectionVars false
namespace Helper.LRU.Threads

variable {L : Type u} {V : Type v} [Cmp L]

/-- The calls that do not insert. -/
inductive Query (L : Type u) where
  | has (l : L)
  | get (l : L)
  | age (l : L)

def Query.call : Query L → Call L V
  | .has l => .hasLabel l
  | .get l => .get l
  | .age l => .age l

/-- Where a thread is within `get`: `e` is the element with index `k`, `other` the one with index `i`. -/
inductive PC where
  | idle
  /-- line 63, before the loop tests for the end; then loads `other.second.age` -/ | other (k i : Nat)
  /-- line 64, `other.second.age` was `a`, before loading `e->second.age` -/ | own (k i a : Nat)
  /-- line 65, before loading `other.second.age` -/ | incLoad (k i : Nat)
  /-- line 65, before storing `a + 1` -/ | incStore (k i a : Nat)
  /-- line 67, before storing 0 -/ | reset (k : Nat)
deriving DecidableEq, Repr

structure Thread (L : Type u) (V : Type v) where
  todo : List (Query L)
  pc : PC
  /-- what the calls returned -/
  out : List (Res (Out V))

structure St (L : Type u) (V : Type v) where
  c : Cache L V
  ts : List (Thread L V)
  /-- accesses of ages: thread, index of the element, and whether it was a store -/
  log : List (Nat × Nat × Bool)

/-- `_elements.find(label)`, as an index. -/
def index (c : Cache L V) (l : L) : Option Nat := c.elements.findIdx? (fun e => Cmp.equiv e.1 l)

/-- The age of the element with index `i` is stored. -/
def setAge (c : Cache L V) (i a : Nat) : Cache L V :=
  { c with elements := c.elements.modify i (fun e => (e.1, { e.2 with age := a })) }

/-- Thread `j` goes on. -/
def St.put (s : St L V) (j : Nat) (t : Thread L V) : St L V := { s with ts := s.ts.set j t }

/-- Thread `j` accesses the age with index `i`. -/
def St.acc (s : St L V) (j i : Nat) (w : Bool) : St L V := { s with log := s.log ++ [(j, i, w)] }

/-- The beginning of a call, up to the first access of an age. `age` makes one load only and is finished at once. -/
def begin (s : St L V) (j : Nat) (t : Thread L V) (rest : List (Query L)) : Query L → St L V
  | .has l => s.put j { t with todo := rest, out := t.out ++ [.ok (.bool (hasLabel s.c l))] }
  | .age l =>
    match index s.c l with
    | none => s.put j { t with todo := rest, out := t.out ++ [.exn .runtimeError] }
    | some k =>
      match s.c.elements[k]? with
      | none => s
      | some e => (s.acc j k false).put j { t with todo := rest, out := t.out ++ [.ok (.num e.2.age)] }
  | .get l =>
    match index s.c l with
    | none => s.put j { t with todo := rest, out := t.out ++ [.exn .runtimeError] }
    | some k => s.put j { t with todo := rest, pc := .other k 0 }

/-- The next access within `get`. -/
def proceed (s : St L V) (j : Nat) (t : Thread L V) : PC → St L V
  | .idle => s
  | .other k i =>
    match s.c.elements[i]? with
    | none => s.put j { t with pc := .reset k }
    | some e => (s.acc j i false).put j { t with pc := .own k i e.2.age }
  | .own k i a =>
    match s.c.elements[k]? with
    | none => s
    | some e => (s.acc j k false).put j { t with pc := if a < e.2.age then .incLoad k i else .other k (i + 1) }
  | .incLoad k i =>
    match s.c.elements[i]? with
    | none => s
    | some e => (s.acc j i false).put j { t with pc := .incStore k i e.2.age }
  | .incStore k i a => St.put { s.acc j i true with c := setAge s.c i (a + 1) } j { t with pc := .other k (i + 1) }
  | .reset k =>
    match s.c.elements[k]? with
    | none => s
    | some e => St.put { s.acc j k true with c := setAge s.c k 0 } j ⟨t.todo, .idle, t.out ++ [.ok (.val e.2.value)]⟩

/-- One step of thread `j`. -/
def step (j : Nat) (s : St L V) : St L V :=
  match s.ts[j]? with
  | none => s
  | some t =>
    if t.pc = .idle then
      match t.todo with
      | [] => s
      | q :: rest => begin s j t rest q
    else proceed s j t t.pc

def run : List Nat → St L V → St L V
  | [], s => s
  | j :: js, s => run js (step j s)

/-- Threads about to make the calls of `qs` with the cache `c`. -/
def init (c : Cache L V) (qs : List (List (Query L))) : St L V := ⟨c, qs.map fun q => ⟨q, .idle, []⟩, []⟩

/-! ## What is claimed -/

/-- Two threads access the same age, one of them to store. -/
def Race (s : St L V) : Prop := ∃ j j' i w, j ≠ j' ∧ (j, i, true) ∈ s.log ∧ (j', i, w) ∈ s.log

/-- Calls do not overlap, as when a mutex is held during each: while a thread is within `get` no other thread takes a step. -/
def Locked : List Nat → St L V → Prop
  | [], _ => True
  | j :: js, s => (∀ (j' : Nat) (t : Thread L V), s.ts[j']? = some t → t.pc ≠ .idle → j = j') ∧ Locked js (step j s)

/-- What belongs to thread `j`. -/
def mine {α : Type w} (j : Nat) (ord : List (Nat × α)) : List α := (ord.filter (fun p => p.1 = j)).map (·.2)

/-- The answers of calls made one after the other, oldest first, and the final cache. -/
def answers (c : Cache L V) : List (Nat × Query L) → List (Nat × Res (Out V)) × Cache L V
  | [] => ([], c)
  | (j, q) :: r => ((j, (call c q.call).1) :: (answers (call c q.call).2 r).1, (answers (call c q.call).2 r).2)

/-! ## Lemmas -/

variable [StrictWeak L]

theorem index_none {c : Cache L V} {l : L} : index c l = none ↔ OMap.find l c.elements = none := by
  simp [index, OMap.find]

theorem index_some {c : Cache L V} {l : L} {k : Nat} (h : index c l = some k) :
    ∃ e, c.elements[k]? = some e ∧ OMap.find l c.elements = some e := by
  unfold index at h
  rw [OMap.find]
  generalize c.elements = es at *
  induction es generalizing k with
  | nil => simp at h
  | cons x t ih =>
    rw [List.findIdx?_cons] at h
    rw [List.find?_cons]
    split at h
    · rename_i hx
      cases h
      exact ⟨x, rfl, by rw [hx]⟩
    · rename_i hx
      rw [Option.map_eq_some_iff] at h
      obtain ⟨m, hm, rfl⟩ := h
      obtain ⟨e, h1, h2⟩ := ih hm
      have hx : Cmp.equiv x.1 l = false := by simpa using hx
      exact ⟨e, by simpa using h1, by rw [hx]; exact h2⟩

theorem index_call {c : Cache L V} {l : L} {k : Nat} {e : L × Entry V} (h : index c l = some k) (he : c.elements[k]? = some e) :
    call c (.get l) = (.ok (.val e.2.value), { c with elements := resetAge e.2.node (bumpYounger e.2.age c.elements) }) ∧
    call c (.age l) = (.ok (.num e.2.age), c) ∧ hasLabel c l = true := by
  obtain ⟨e', h1, h2⟩ := index_some h
  rw [h1] at he; cases he
  simp [call, get, age, hasLabel, h2]

theorem index_none_call {c : Cache L V} {l : L} (h : index c l = none) :
    call c (.get l) = (.exn .runtimeError, c) ∧ call c (.age l) = (.exn .runtimeError, c) ∧ hasLabel c l = false := by
  rw [index_none] at h
  simp [call, get, age, hasLabel, h]

/-- The elements when the loop of `get` has come to index `i`, where `b` is the age of the element looked up. -/
def prog (b i : Nat) (es : List (L × Entry V)) : List (L × Entry V) :=
  es.mapIdx fun m e => if m < i ∧ e.2.age < b then (e.1, { e.2 with age := e.2.age + 1 }) else e

theorem prog_zero (b : Nat) (es : List (L × Entry V)) : prog b 0 es = es := by
  apply List.ext_getElem?
  intro m
  simp [prog, List.getElem?_mapIdx]

theorem prog_all {b i : Nat} {es : List (L × Entry V)} (h : es.length ≤ i) : prog b i es = bumpYounger b es := by
  apply List.ext_getElem?
  intro m
  simp only [prog, List.getElem?_mapIdx, bumpYounger, List.getElem?_map]
  cases hm : es[m]? with
  | none => rfl
  | some e =>
    have : m < i := by obtain ⟨h', _⟩ := List.getElem?_eq_some_iff.1 hm; omega
    simp [this]

theorem prog_get {b i : Nat} {es : List (L × Entry V)} {m : Nat} : (prog b i es)[m]? =
    es[m]?.map fun e => if m < i ∧ e.2.age < b then (e.1, { e.2 with age := e.2.age + 1 }) else e := by
  simp [prog, List.getElem?_mapIdx]

theorem prog_own {i k : Nat} {es : List (L × Entry V)} {e : L × Entry V} (he : es[k]? = some e) :
    (prog e.2.age i es)[k]? = some e := by
  simp [prog_get, he]

theorem prog_next {b i : Nat} {es : List (L × Entry V)} {e : L × Entry V} (he : es[i]? = some e) (h : ¬ e.2.age < b) :
    prog b (i + 1) es = prog b i es := by
  apply List.ext_getElem?
  intro m
  rw [prog_get, prog_get]
  by_cases hm : m = i
  · subst hm; simp [he, h]
  · have : m < i + 1 ↔ m < i := by omega
    simp [this]

theorem prog_store {b i : Nat} {es : List (L × Entry V)} {e : L × Entry V} (he : es[i]? = some e) (h : e.2.age < b) :
    (prog b i es).modify i (fun x => (x.1, { x.2 with age := e.2.age + 1 })) = prog b (i + 1) es := by
  apply List.ext_getElem?
  intro m
  rw [List.getElem?_modify, prog_get, prog_get]
  by_cases hm : m = i
  · subst hm; simp [he, h]
  · have h1 : m < i + 1 ↔ m < i := by omega
    have h2 : ¬ i = m := by omega
    simp [h1, h2]

theorem nodes_inj {es : List (L × Entry V)} (hn : (es.map (fun e => e.2.node)).Nodup) {m k : Nat} {e e' : L × Entry V}
    (h : es[m]? = some e) (h' : es[k]? = some e') (hh : e.2.node = e'.2.node) : m = k := by
  obtain ⟨hm, rfl⟩ := List.getElem?_eq_some_iff.1 h
  obtain ⟨hk, rfl⟩ := List.getElem?_eq_some_iff.1 h'
  have := (List.getElem_inj (i := m) (j := k) (h₀ := by simpa using hm) (h₁ := by simpa using hk) hn).1 (by simpa using hh)
  exact this

theorem reset_eq {es : List (L × Entry V)} (hn : (es.map (fun e => e.2.node)).Nodup) {k : Nat} {e : L × Entry V} (he : es[k]? = some e) :
    (bumpYounger e.2.age es).modify k (fun x => (x.1, { x.2 with age := 0 })) = resetAge e.2.node (bumpYounger e.2.age es) := by
  apply List.ext_getElem?
  intro m
  rw [List.getElem?_modify, resetAge, List.getElem?_map, bumpYounger, List.getElem?_map]
  cases hm : es[m]? with
  | none => rfl
  | some x =>
    by_cases hk : k = m
    · subst hk
      rw [he] at hm; cases hm
      simp
    · have : x.2.node ≠ e.2.node := fun h => hk (nodes_inj hn hm he h).symm
      simp only [Option.map_some, Option.map_eq_map, hk, if_false]
      split <;> simp_all

/-! ## Calls that do not overlap -/

theorem answers_snoc (c : Cache L V) (ord : List (Nat × Query L)) (j : Nat) (q : Query L) :
    answers c (ord ++ [(j, q)]) =
    ((answers c ord).1 ++ [(j, (call (answers c ord).2 q.call).1)], (call (answers c ord).2 q.call).2) := by
  induction ord generalizing c with
  | nil => rfl
  | cons p r ih => simp [answers, ih]

theorem mine_snoc {α : Type w} (j j' : Nat) (ord : List (Nat × α)) (a : α) :
    mine j (ord ++ [(j', a)]) = if j' = j then mine j ord ++ [a] else mine j ord := by
  simp only [mine, List.filter_append, List.map_append]
  split <;> simp_all

theorem forall_set {α : Type w} {P : Nat → α → Prop} {ts : List α} {j : Nat} {t' : α} (h : ∀ i t, ts[i]? = some t → i ≠ j → P i t)
    (h' : P j t') : ∀ i t, (ts.set j t')[i]? = some t → P i t := by
  intro i t hi
  rw [List.getElem?_set] at hi
  split at hi
  · split at hi
    · cases hi; rename_i h1 _; subst h1; exact h'
    · cases hi
  · rename_i h1; exact h i t hi (fun h2 => h1 h2.symm)

/-- How far a `get` of the element `e` with index `k` has come that found the cache as `c`. -/
inductive Mid (c : Cache L V) (e : L × Entry V) (k : Nat) : PC → Cache L V → Prop where
  | other (i : Nat) : Mid c e k (.other k i) { c with elements := prog e.2.age i c.elements }
  | own (i : Nat) (x : L × Entry V) : c.elements[i]? = some x →
      Mid c e k (.own k i x.2.age) { c with elements := prog e.2.age i c.elements }
  | incLoad (i : Nat) (x : L × Entry V) : c.elements[i]? = some x → x.2.age < e.2.age →
      Mid c e k (.incLoad k i) { c with elements := prog e.2.age i c.elements }
  | incStore (i : Nat) (x : L × Entry V) : c.elements[i]? = some x → x.2.age < e.2.age →
      Mid c e k (.incStore k i x.2.age) { c with elements := prog e.2.age i c.elements }
  | reset : Mid c e k (.reset k) { c with elements := bumpYounger e.2.age c.elements }

theorem Mid.busy {c c' : Cache L V} {e : L × Entry V} {k : Nat} {pc : PC} (h : Mid c e k pc c') : pc ≠ .idle := by
  cases h <;> simp

def Todo (qs : List (List (Query L))) (ord : List (Nat × Query L)) (s : St L V) : Prop :=
  ∀ (j : Nat) (t : Thread L V), s.ts[j]? = some t → qs[j]? = some (mine j ord ++ t.todo)

def Outs (c0 : Cache L V) (ord : List (Nat × Query L)) (s : St L V) : Prop :=
  ∀ (j : Nat) (t : Thread L V), s.ts[j]? = some t → t.out = mine j (answers c0 ord).1

structure Inv (c0 : Cache L V) (qs : List (List (Query L))) (s : St L V) (ord : List (Nat × Query L)) : Prop where
  nodes : ((answers c0 ord).2.elements.map (fun e => e.2.node)).Nodup
  outs : Outs c0 ord s
  state : ((∀ (j : Nat) (t : Thread L V), s.ts[j]? = some t → t.pc = .idle) ∧ s.c = (answers c0 ord).2 ∧ Todo qs ord s) ∨
    ∃ j0 t0 l k e, s.ts[j0]? = some t0 ∧ (∀ (j : Nat) (t : Thread L V), s.ts[j]? = some t → j ≠ j0 → t.pc = .idle) ∧
      index (answers c0 ord).2 l = some k ∧ (answers c0 ord).2.elements[k]? = some e ∧
      Mid (answers c0 ord).2 e k t0.pc s.c ∧ Todo qs (ord ++ [(j0, .get l)]) s

theorem nodes_call {c : Cache L V} (h : (c.elements.map (fun e => e.2.node)).Nodup) (q : Query L) :
    ((call c (q.call : Call L V)).2.elements.map (fun e => e.2.node)).Nodup := by
  cases q with
  | has l => exact h
  | age l =>
    cases hi : index c l with
    | none => rw [Query.call, (index_none_call hi).2.1]; exact h
    | some k => obtain ⟨e, h1, _⟩ := index_some hi; rw [Query.call, (index_call hi h1).2.1]; exact h
  | get l =>
    cases hi : index c l with
    | none => rw [Query.call, (index_none_call hi).1]; exact h
    | some k =>
      obtain ⟨e, h1, _⟩ := index_some hi
      rw [Query.call, (index_call hi h1).1]
      show ((resetAge _ (bumpYounger _ _)).map _).Nodup
      rw [resetAge_bump_nodes]; exact h

variable {c0 : Cache L V} {qs : List (List (Query L))}

/-- A call that is finished in one step. -/
theorem Inv.finish {s s' : St L V} {ord : List (Nat × Query L)} (h : Inv c0 qs s ord) {j : Nat} {t : Thread L V} (hj : s.ts[j]? = some t)
    (hidle : ∀ (j : Nat) (t : Thread L V), s.ts[j]? = some t → t.pc = .idle) (hc : s.c = (answers c0 ord).2) (htodo : Todo qs ord s)
    {q : Query L} {rest : List (Query L)} (hq : t.todo = q :: rest) (hcall : (call s.c (q.call : Call L V)).2 = s.c)
    (hs' : s'.c = s.c) (hts : s'.ts = s.ts.set j { t with todo := rest, out := t.out ++ [(call s.c q.call).1] }) :
    Inv c0 qs s' (ord ++ [(j, q)]) := by
  have ht := h.outs j t hj
  refine ⟨?_, ?_, .inl ⟨?_, ?_, ?_⟩⟩
  · rw [answers_snoc]; exact nodes_call h.nodes q
  · intro i x hx
    rw [hts] at hx
    refine forall_set (P := fun i x => x.out = mine i (answers c0 (ord ++ [(j, q)])).1) (fun i x hi hij => ?_) ?_ i x hx
    · rw [answers_snoc, mine_snoc, if_neg (fun hh => hij hh.symm)]; exact h.outs i x hi
    · rw [answers_snoc, mine_snoc, if_pos rfl, ← hc, ← ht]
  · rw [hts]
    refine forall_set (P := fun _ (x : Thread L V) => x.pc = .idle) (fun i x hi _ => hidle i x hi) ?_
    exact hidle j t hj
  · rw [hs', answers_snoc, ← hc]; exact hcall.symm
  · intro i x hx
    rw [hts] at hx
    refine forall_set (P := fun i x => qs[i]? = some (mine i (ord ++ [(j, q)]) ++ x.todo)) (fun i x hi hij => ?_) ?_ i x hx
    · rw [mine_snoc, if_neg (fun hh => hij hh.symm)]; exact htodo i x hi
    · rw [mine_snoc, if_pos rfl, htodo j t hj, hq]; simp

/-- An access in the middle of `get`. -/
theorem Inv.go {s s' : St L V} {ord : List (Nat × Query L)} (h : Inv c0 qs s ord) {j0 : Nat} {t0 : Thread L V} {l : L} {k : Nat}
    {e : L × Entry V} (hj : s.ts[j0]? = some t0) (hidle : ∀ (j : Nat) (t : Thread L V), s.ts[j]? = some t → j ≠ j0 → t.pc = .idle)
    (hk : index (answers c0 ord).2 l = some k) (he : (answers c0 ord).2.elements[k]? = some e)
    (htodo : Todo qs (ord ++ [(j0, .get l)]) s) {pc : PC} (hm : Mid (answers c0 ord).2 e k pc s'.c)
    (hts : s'.ts = s.ts.set j0 { t0 with pc := pc }) : Inv c0 qs s' ord := by
  have hlt : j0 < s.ts.length := (List.getElem?_eq_some_iff.1 hj).1
  refine ⟨h.nodes, ?_, .inr ⟨j0, { t0 with pc := pc }, l, k, e, ?_, ?_, hk, he, hm, ?_⟩⟩
  · intro i x hx
    rw [hts] at hx
    exact forall_set (P := fun i x => x.out = mine i (answers c0 ord).1) (fun i x hi _ => h.outs i x hi) (h.outs j0 t0 hj) i x hx
  · rw [hts, List.getElem?_set]; simp [hlt]
  · rw [hts]
    exact forall_set (P := fun i x => i ≠ j0 → x.pc = .idle) (fun i x hi _ => hidle i x hi) (fun hh => absurd rfl hh)
  · intro i x hx
    rw [hts] at hx
    exact forall_set (P := fun i x => qs[i]? = some (mine i (ord ++ [(j0, Query.get l)]) ++ x.todo)) (fun i x hi _ => htodo i x hi)
      (htodo j0 t0 hj) i x hx

theorem Inv.step {s : St L V} {ord : List (Nat × Query L)} (h : Inv c0 qs s ord) {j : Nat}
    (hj : ∀ (j' : Nat) (t : Thread L V), s.ts[j']? = some t → t.pc ≠ .idle → j = j') : ∃ ord', Inv c0 qs (step j s) ord' := by
  unfold Threads.step
  cases ht : s.ts[j]? with
  | none => exact ⟨ord, h⟩
  | some t =>
    rcases h.state with ⟨hidle, hc, htodo⟩ | ⟨j0, t0, l, k, e, hj0, hidle, hk, he, hm, htodo⟩
    · simp only [hidle j t ht, if_true]
      cases hq : t.todo with
      | nil => exact ⟨ord, h⟩
      | cons q rest =>
        cases q with
        | has l => exact ⟨_, h.finish (s' := begin s j t rest (.has l)) ht hidle hc htodo hq rfl rfl rfl⟩
        | age l =>
          cases hi : index s.c l with
          | none =>
            refine ⟨_, h.finish (s' := begin s j t rest (.age l)) ht hidle hc htodo hq ?_ ?_ ?_⟩ <;>
              simp [begin, hi, Query.call, (index_none_call hi).2.1, St.put]
          | some k =>
            obtain ⟨e, he, _⟩ := index_some hi
            refine ⟨_, h.finish (s' := begin s j t rest (.age l)) ht hidle hc htodo hq ?_ ?_ ?_⟩ <;>
              simp [begin, hi, he, Query.call, (index_call hi he).2.1, St.put, St.acc]
        | get l =>
          cases hi : index s.c l with
          | none =>
            refine ⟨_, h.finish (s' := begin s j t rest (.get l)) ht hidle hc htodo hq ?_ ?_ ?_⟩ <;>
              simp [begin, hi, Query.call, (index_none_call hi).1, St.put]
          | some k =>
            obtain ⟨e, he, _⟩ := index_some hi
            have hlt : j < s.ts.length := (List.getElem?_eq_some_iff.1 ht).1
            have hb : begin s j t rest (.get l) = s.put j { t with todo := rest, pc := .other k 0 } := by simp [begin, hi]
            refine ⟨ord, ?_⟩
            show Inv c0 qs (begin s j t rest (.get l)) ord
            rw [hb]
            rw [hc] at hi he
            refine ⟨h.nodes, ?_, .inr ⟨j, { t with todo := rest, pc := .other k 0 }, l, k, e, ?_, ?_, hi, he, ?_, ?_⟩⟩
            · refine forall_set (P := fun i (x : Thread L V) => x.out = mine i (answers c0 ord).1) (fun i x hi _ => h.outs i x hi) ?_
              exact h.outs j t ht
            · simp [St.put, hlt]
            · exact forall_set (P := fun i x => i ≠ j → x.pc = .idle) (fun i x hi _ _ => hidle i x hi) (fun hh => absurd rfl hh)
            · show Mid _ e k (.other k 0) s.c
              have := Mid.other (c := (answers c0 ord).2) (e := e) (k := k) 0
              rw [prog_zero] at this
              rw [hc]; exact this
            · refine forall_set (P := fun i (x : Thread L V) => qs[i]? = some (mine i (ord ++ [(j, Query.get l)]) ++ x.todo)) (fun i x hi hij => ?_) ?_
              · rw [mine_snoc, if_neg (fun hh => hij hh.symm)]; exact htodo i x hi
              · rw [mine_snoc, if_pos rfl, htodo j t ht, hq]; simp
    · have hbusy := hm.busy
      have : j = j0 := hj j0 t0 hj0 hbusy
      subst this
      rw [hj0] at ht; cases ht
      simp only [hbusy, if_false]
      obtain ⟨todo, pc, out⟩ := t
      simp only at hm ⊢
      obtain ⟨c, ts, log⟩ := s
      simp only at hm
      cases hm with
      | other i =>
        cases hx : (answers c0 ord).2.elements[i]? with
        | none =>
          have hx' : (prog e.2.age i (answers c0 ord).2.elements)[i]? = none := by rw [prog_get, hx]; rfl
          refine ⟨ord, h.go hj0 hidle hk he htodo (pc := .reset k) ?_ ?_⟩
          · simp only [proceed, hx', St.put]
            rw [prog_all (List.getElem?_eq_none_iff.1 hx)]
            exact .reset
          · simp only [proceed, hx', St.put]
        | some x =>
          have hx' : (prog e.2.age i (answers c0 ord).2.elements)[i]? = some x := by rw [prog_get, hx]; simp
          refine ⟨ord, h.go hj0 hidle hk he htodo (pc := .own k i x.2.age) ?_ ?_⟩
          · simp only [proceed, hx', St.put, St.acc]; exact .own i x hx
          · simp only [proceed, hx', St.put, St.acc]
      | own i x hx =>
        have he' := prog_own (i := i) he
        refine ⟨ord, h.go hj0 hidle hk he htodo (pc := if x.2.age < e.2.age then .incLoad k i else .other k (i + 1)) ?_ ?_⟩
        · simp only [proceed, he', St.put, St.acc]
          split
          · rename_i hlt; exact .incLoad i x hx hlt
          · rename_i hlt; rw [← prog_next hx hlt]; exact .other (i + 1)
        · simp only [proceed, he', St.put, St.acc]
      | incLoad i x hx hlt =>
        have hx' : (prog e.2.age i (answers c0 ord).2.elements)[i]? = some x := by rw [prog_get, hx]; simp
        refine ⟨ord, h.go hj0 hidle hk he htodo (pc := .incStore k i x.2.age) ?_ ?_⟩
        · simp only [proceed, hx', St.put, St.acc]; exact .incStore i x hx hlt
        · simp only [proceed, hx', St.put, St.acc]
      | incStore i x hx hlt =>
        refine ⟨ord, h.go hj0 hidle hk he htodo (pc := .other k (i + 1)) ?_ ?_⟩
        · simp only [proceed, St.put, St.acc, setAge]
          rw [prog_store hx hlt]; exact .other (i + 1)
        · simp only [proceed, St.put, St.acc]
      | reset =>
        have he' : (bumpYounger e.2.age (answers c0 ord).2.elements)[k]? = some e := by
          rw [bumpYounger, List.getElem?_map, he]; simp
        have hout := h.outs j _ hj0
        simp only at hout
        refine ⟨ord ++ [(j, .get l)], ?_, ?_, .inl ⟨?_, ?_, ?_⟩⟩
        · rw [answers_snoc]; exact nodes_call h.nodes _
        · simp only [proceed, he', St.put, St.acc, Outs]
          refine forall_set (P := fun i (x : Thread L V) => x.out = mine i (answers c0 (ord ++ [(j, Query.get l)])).1) (fun i x hi hij => ?_) ?_
          · rw [answers_snoc, mine_snoc, if_neg (fun hh => hij hh.symm)]; exact h.outs i x hi
          · rw [answers_snoc, mine_snoc, if_pos rfl, ← hout, Query.call, (index_call hk he).1]
        · simp only [proceed, he', St.put, St.acc]
          exact forall_set (P := fun _ (x : Thread L V) => x.pc = .idle) (fun i x hi hij => hidle i x hi hij) (by rfl)
        · simp only [proceed, he', St.put, St.acc, setAge]
          rw [answers_snoc, Query.call, (index_call hk he).1, reset_eq h.nodes he]
        · simp only [proceed, he', St.put, St.acc, Todo]
          refine forall_set (P := fun i (x : Thread L V) => qs[i]? = some (mine i (ord ++ [(j, Query.get l)]) ++ x.todo))
            (fun i x hi _ => htodo i x hi) ?_
          exact htodo j ⟨todo, .reset k, out⟩ hj0

theorem Inv.run : ∀ {sched : List Nat} {s : St L V} {ord : List (Nat × Query L)}, Inv c0 qs s ord → Locked sched s →
    ∃ ord', Inv c0 qs (run sched s) ord' := by
  intro sched
  induction sched with
  | nil => intro s ord h _; exact ⟨ord, h⟩
  | cons j js ih =>
    intro s ord h hl
    obtain ⟨ord', h'⟩ := h.step hl.1
    exact ih h' hl.2

theorem inv_init (hn : (c0.elements.map (fun e => e.2.node)).Nodup) (qs : List (List (Query L))) : Inv c0 qs (init c0 qs) [] := by
  have hts : ∀ (j : Nat) (t : Thread L V), (init c0 qs).ts[j]? = some t → ∃ q, qs[j]? = some q ∧ t = ⟨q, .idle, []⟩ := by
    intro j t ht
    simp only [init, List.getElem?_map, Option.map_eq_some_iff] at ht
    obtain ⟨q, h1, h2⟩ := ht
    exact ⟨q, h1, h2.symm⟩
  refine ⟨hn, ?_, .inl ⟨?_, rfl, ?_⟩⟩
  · intro j t ht; obtain ⟨q, _, rfl⟩ := hts j t ht; rfl
  · intro j t ht; obtain ⟨q, _, rfl⟩ := hts j t ht; rfl
  · intro j t ht; obtain ⟨q, h1, rfl⟩ := hts j t ht; exact h1

/-- C121: if the calls do not overlap then there is an order of them, in which each thread makes its calls in turn, such that every
thread has got the answers of a cache that is called in this order, and the cache is what it is after these calls. -/
theorem C121_locked_partial {n : Nat} (hn : 0 < n) (calls : List (Call L V)) (qs : List (List (Query L)))
    (sched : List Nat) (hl : Locked sched (init (LRU.run (empty n) calls).2 qs)) :
    let c := (LRU.run (empty n) calls).2
    let s := run sched (init c qs)
    ∃ ord : List (Nat × Query L),
      (∀ (j : Nat) (t : Thread L V), s.ts[j]? = some t →
        qs[j]? = some (mine j ord ++ t.todo) ∧ (t.pc = .idle → t.out = mine j (answers c ord).1)) ∧
      ((∀ (j : Nat) (t : Thread L V), s.ts[j]? = some t → t.pc = .idle) → s.c = (answers c ord).2) := by
  intro c s
  have hrep := (run_refine hn calls).2
  obtain ⟨ord, h⟩ := (inv_init hrep.nodes qs).run hl
  rcases h.state with ⟨hidle, hc, htodo⟩ | ⟨j0, t0, l, k, e, hj0, hidle, hk, he, hm, htodo⟩
  · exact ⟨ord, fun j t ht => ⟨htodo j t ht, fun _ => h.outs j t ht⟩, fun _ => hc⟩
  · refine ⟨ord ++ [(j0, .get l)], fun j t ht => ⟨htodo j t ht, fun hp => ?_⟩, fun hall => absurd (hall j0 t0 hj0) hm.busy⟩
    have : j0 ≠ j := by
      rintro rfl
      rw [show s.ts[j0]? = some t0 from hj0] at ht; cases ht
      exact hm.busy hp
    rw [answers_snoc, mine_snoc, if_neg this]
    exact h.outs j t ht

theorem run_append (a b : List Nat) (s : St L V) : run (a ++ b) s = run b (run a s) := by
  induction a generalizing s with
  | nil => rfl
  | cons j a ih => exact ih _

/-- What every step keeps, every run keeps. -/
theorem run_keeps {P : St L V → Prop} (h : ∀ s j, P s → P (step j s)) : ∀ (sched : List Nat) (s : St L V), P s → P (run sched s) := by
  intro sched
  induction sched with
  | nil => intro s hs; exact hs
  | cons j r ih => intro s hs; exact ih _ (h s j hs)

/-- Every step changes one thread, in one of these ways. -/
inductive Moves (s : St L V) (j : Nat) (t : Thread L V) : St L V → Prop where
  | none : Moves s j t s
  | has (l : L) (rest : List (Query L)) : t.pc = .idle → t.todo = .has l :: rest →
      Moves s j t (s.put j ⟨rest, .idle, t.out ++ [.ok (.bool (hasLabel s.c l))]⟩)
  | missing (q : Query L) (l : L) (rest : List (Query L)) : t.pc = .idle → t.todo = q :: rest → q = .get l ∨ q = .age l → index s.c l = none →
      Moves s j t (s.put j ⟨rest, .idle, t.out ++ [.exn .runtimeError]⟩)
  | age (l : L) (rest : List (Query L)) (k : Nat) (e : L × Entry V) : t.pc = .idle → t.todo = .age l :: rest → index s.c l = some k →
      s.c.elements[k]? = some e → Moves s j t ((s.acc j k false).put j ⟨rest, .idle, t.out ++ [.ok (.num e.2.age)]⟩)
  | get (l : L) (rest : List (Query L)) (k : Nat) : t.pc = .idle → t.todo = .get l :: rest → index s.c l = some k →
      Moves s j t (s.put j ⟨rest, .other k 0, t.out⟩)
  | last (k i : Nat) : t.pc = .other k i → s.c.elements[i]? = none → Moves s j t (s.put j ⟨t.todo, .reset k, t.out⟩)
  | other (k i : Nat) (e : L × Entry V) : t.pc = .other k i → s.c.elements[i]? = some e →
      Moves s j t ((s.acc j i false).put j ⟨t.todo, .own k i e.2.age, t.out⟩)
  | own (k i a : Nat) (e : L × Entry V) : t.pc = .own k i a → s.c.elements[k]? = some e →
      Moves s j t ((s.acc j k false).put j ⟨t.todo, if a < e.2.age then .incLoad k i else .other k (i + 1), t.out⟩)
  | incLoad (k i : Nat) (e : L × Entry V) : t.pc = .incLoad k i → s.c.elements[i]? = some e →
      Moves s j t ((s.acc j i false).put j ⟨t.todo, .incStore k i e.2.age, t.out⟩)
  | incStore (k i a : Nat) : t.pc = .incStore k i a →
      Moves s j t (St.put { s.acc j i true with c := setAge s.c i (a + 1) } j ⟨t.todo, .other k (i + 1), t.out⟩)
  | reset (k : Nat) (e : L × Entry V) : t.pc = .reset k → s.c.elements[k]? = some e →
      Moves s j t (St.put { s.acc j k true with c := setAge s.c k 0 } j ⟨t.todo, .idle, t.out ++ [.ok (.val e.2.value)]⟩)

theorem step_moves {s : St L V} {j : Nat} {t : Thread L V} (h : s.ts[j]? = some t) : Moves s j t (step j s) := by
  obtain ⟨todo, pc, out⟩ := t
  unfold step
  simp only [h]
  split
  · rename_i hp
    subst hp
    cases todo with
    | nil => exact .none
    | cons q rest =>
      cases q with
      | has l => exact .has l rest rfl rfl
      | age l =>
        show Moves s j ⟨.age l :: rest, .idle, out⟩ (begin s j ⟨.age l :: rest, .idle, out⟩ rest (.age l))
        cases hi : index s.c l with
        | none =>
          rw [show begin s j ⟨.age l :: rest, .idle, out⟩ rest (.age l) = s.put j ⟨rest, .idle, out ++ [.exn .runtimeError]⟩ by
            simp [begin, hi]]
          exact Moves.missing (t := ⟨.age l :: rest, .idle, out⟩) _ l rest rfl rfl (.inr rfl) hi
        | some k =>
          obtain ⟨e, he, _⟩ := index_some hi
          rw [show begin s j ⟨.age l :: rest, .idle, out⟩ rest (.age l) =
            (s.acc j k false).put j ⟨rest, .idle, out ++ [.ok (.num e.2.age)]⟩ by simp [begin, hi, he]]
          exact Moves.age (t := ⟨.age l :: rest, .idle, out⟩) l rest k e rfl rfl hi he
      | get l =>
        show Moves s j ⟨.get l :: rest, .idle, out⟩ (begin s j ⟨.get l :: rest, .idle, out⟩ rest (.get l))
        cases hi : index s.c l with
        | none =>
          rw [show begin s j ⟨.get l :: rest, .idle, out⟩ rest (.get l) = s.put j ⟨rest, .idle, out ++ [.exn .runtimeError]⟩ by
            simp [begin, hi]]
          exact Moves.missing (t := ⟨.get l :: rest, .idle, out⟩) _ l rest rfl rfl (.inl rfl) hi
        | some k =>
          rw [show begin s j ⟨.get l :: rest, .idle, out⟩ rest (.get l) = s.put j ⟨rest, .other k 0, out⟩ by simp [begin, hi]]
          exact Moves.get (t := ⟨.get l :: rest, .idle, out⟩) l rest k rfl rfl hi
  · cases pc with
    | idle => exact .none
    | other k i =>
      simp only [proceed]
      cases he : s.c.elements[i]? with
      | none => exact .last k i rfl he
      | some e => exact .other k i e rfl he
    | own k i a =>
      simp only [proceed]
      cases he : s.c.elements[k]? with
      | none => exact .none
      | some e => exact .own k i a e rfl he
    | incLoad k i =>
      simp only [proceed]
      cases he : s.c.elements[i]? with
      | none => exact .none
      | some e => exact .incLoad k i e rfl he
    | incStore k i a => exact .incStore k i a rfl
    | reset k =>
      simp only [proceed]
      cases he : s.c.elements[k]? with
      | none => exact .none
      | some e => exact .reset k e rfl he

/-! ## Values, whatever the schedule -/

/-- An element without its age. -/
def bare (e : L × Entry V) : L × V × Nat := (e.1, e.2.value, e.2.node)

/-- The caches differ in the ages only. -/
def SameButAges (c c' : Cache L V) : Prop :=
  c.maximumSize = c'.maximumSize ∧ c.nextNode = c'.nextNode ∧ c.elements.map bare = c'.elements.map bare

theorem setAge_same (c : Cache L V) (i a : Nat) : SameButAges (setAge c i a) c := by
  refine ⟨rfl, rfl, ?_⟩
  apply List.ext_getElem?
  intro m
  simp only [setAge, List.getElem?_map, List.getElem?_modify]
  cases c.elements[m]? with
  | none => rfl
  | some e => by_cases h : i = m <;> simp [h, bare]

theorem SameButAges.trans {a b c : Cache L V} (h : SameButAges a b) (h' : SameButAges b c) : SameButAges a c :=
  ⟨h.1.trans h'.1, h.2.1.trans h'.2.1, h.2.2.trans h'.2.2⟩

theorem SameButAges.index {c c' : Cache L V} (h : SameButAges c c') (l : L) : index c l = index c' l := by
  have : ∀ es : List (L × Entry V), es.findIdx? (fun e => Cmp.equiv e.1 l) = (es.map bare).findIdx? (fun e => Cmp.equiv e.1 l) := by
    intro es
    rw [List.findIdx?_map]; rfl
  rw [Threads.index, Threads.index, this, this, h.2.2]

theorem SameButAges.value {c c' : Cache L V} (h : SameButAges c c') {k : Nat} {e : L × Entry V} (he : c.elements[k]? = some e) :
    ∃ e', c'.elements[k]? = some e' ∧ e'.2.value = e.2.value := by
  have : (c'.elements.map bare)[k]? = some (bare e) := by rw [← h.2.2, List.getElem?_map, he]; rfl
  rw [List.getElem?_map, Option.map_eq_some_iff] at this
  obtain ⟨e', h1, h2⟩ := this
  exact ⟨e', h1, by simp only [bare, Prod.mk.injEq] at h2; exact h2.2.1⟩

theorem SameButAges.hasLabel {c c' : Cache L V} (h : SameButAges c c') (l : L) : hasLabel c l = hasLabel c' l := by
  have hi := h.index l
  cases hc : Threads.index c l with
  | none => rw [(index_none_call hc).2.2, (index_none_call (hi ▸ hc)).2.2]
  | some k =>
    obtain ⟨e, h1, _⟩ := index_some hc
    obtain ⟨e', h2, _⟩ := h.value h1
    rw [(index_call hc h1).2.2, (index_call (hi ▸ hc) h2).2.2]

/-- The answer is right but for the number of an age. -/
def Right (c : Cache L V) : Query L → Res (Out V) → Prop
  | .has l, r => r = .ok (.bool (LRU.hasLabel c l))
  | .get l, r => r = (call c (.get l)).1
  | .age l, r => if LRU.hasLabel c l then ∃ a, r = .ok (.num a) else r = .exn .runtimeError

/-- The element that a thread is looking up. -/
def PC.elem : PC → Option Nat
  | .idle => none
  | .other k _ | .own k _ _ | .incLoad k _ | .incStore k _ _ | .reset k => some k

structure Good (c0 : Cache L V) (q : List (Query L)) (t : Thread L V) (done : List (Query L)) : Prop where
  split : q = done ++ t.todo
  length : done.length = t.out.length + (if t.pc = .idle then 0 else 1)
  right : ∀ (i : Nat) r, t.out[i]? = some r → ∃ x, done[i]? = some x ∧ Right c0 x r
  pending : ∀ k, t.pc.elem = some k → ∃ l, done[t.out.length]? = some (.get l) ∧ index c0 l = some k

theorem Good.answer {q done : List (Query L)} {t : Thread L V} (h : Good c0 q t done) {x : Query L} {rest : List (Query L)}
    (hp : t.pc = .idle) (ht : t.todo = x :: rest) {r : Res (Out V)} (hr : Right c0 x r) :
    Good c0 q ⟨rest, .idle, t.out ++ [r]⟩ (done ++ [x]) := by
  have hl := h.length
  simp only [hp, if_true, Nat.add_zero] at hl
  refine ⟨by rw [h.split, ht]; simp, by simp [hl], ?_, fun k hk => by simp [PC.elem] at hk⟩
  intro i r' hi
  simp only at hi
  rw [List.getElem?_append] at hi
  split at hi
  · rename_i hlt
    obtain ⟨y, hy, h2⟩ := h.right i r' hi
    exact ⟨y, by rw [List.getElem?_append_left (by omega)]; exact hy, h2⟩
  · rename_i hlt
    have hi0 : i - t.out.length = 0 := by
      have := (List.getElem?_eq_some_iff.1 hi).1
      simp at this; omega
    rw [hi0] at hi
    cases hi
    exact ⟨x, by rw [List.getElem?_append_right (by omega)]; simp [show i - done.length = 0 by omega], hr⟩

/-- Steps within `get`. -/
theorem Good.move {q done : List (Query L)} {t : Thread L V} (h : Good c0 q t done) {k : Nat} {pc : PC} (hk : t.pc.elem = some k)
    (hk' : pc.elem = some k) : Good c0 q ⟨t.todo, pc, t.out⟩ done := by
  have h1 : t.pc ≠ .idle := by rintro hh; rw [hh] at hk; cases hk
  have h2 : pc ≠ .idle := by rintro rfl; cases hk'
  refine ⟨h.split, ?_, h.right, ?_⟩
  · have := h.length; simp only [h1, if_false] at this; simp only [h2, if_false]; exact this
  · intro k' hk''
    rw [hk'] at hk''; cases hk''
    exact h.pending k hk

def AllGood (c0 : Cache L V) (qs : List (List (Query L))) (s : St L V) : Prop :=
  SameButAges s.c c0 ∧ ∀ (j : Nat) (t : Thread L V), s.ts[j]? = some t → ∃ q done, qs[j]? = some q ∧ Good c0 q t done

theorem AllGood.set {s s' : St L V} (h : AllGood c0 qs s) (hc : SameButAges s'.c s.c) {j : Nat} {t' : Thread L V}
    (hts : s'.ts = s.ts.set j t') (h' : ∃ q done, qs[j]? = some q ∧ Good c0 q t' done) : AllGood c0 qs s' := by
  refine ⟨hc.trans h.1, ?_⟩
  rw [hts]
  exact forall_set (P := fun i t => ∃ q done, qs[i]? = some q ∧ Good c0 q t done) (fun i t hi _ => h.2 i t hi) h'

theorem SameButAges.refl (c : Cache L V) : SameButAges c c := ⟨rfl, rfl, rfl⟩

theorem AllGood.step {s : St L V} (h : AllGood c0 qs s) (j : Nat) : AllGood c0 qs (step j s) := by
  cases ht : s.ts[j]? with
  | none => unfold Threads.step; simp only [ht]; exact h
  | some t =>
    obtain ⟨q, done, hq, hg⟩ := h.2 j t ht
    have hm := step_moves ht
    generalize Threads.step j s = s' at hm
    cases hm with
    | none => exact h
    | has l rest hp htd => exact h.set (.refl _) rfl ⟨q, _, hq, hg.answer hp htd (by rw [h.1.hasLabel]; rfl)⟩
    | missing x l rest hp htd hx hi =>
      have hi0 : index c0 l = none := by rw [← h.1.index]; exact hi
      refine h.set (.refl _) rfl ⟨q, _, hq, hg.answer hp htd ?_⟩
      rcases hx with rfl | rfl
      · simp only [Right, (index_none_call hi0).1]
      · simp [Right, (index_none_call hi0).2.2]
    | age l rest k e hp htd hi he =>
      have hi0 : index c0 l = some k := by rw [← h.1.index]; exact hi
      obtain ⟨e', he', _⟩ := h.1.value he
      exact h.set (.refl _) rfl ⟨q, _, hq, hg.answer hp htd (by simp [Right, (index_call hi0 he').2.2])⟩
    | get l rest k hp htd hi =>
      have hi0 : index c0 l = some k := by rw [← h.1.index]; exact hi
      refine h.set (.refl _) rfl ⟨q, done ++ [.get l], hq, ?_⟩
      have hl := hg.length
      simp only [hp, if_true, Nat.add_zero] at hl
      refine ⟨by rw [hg.split, htd]; simp, by simp [hl], ?_, ?_⟩
      · intro i r hr
        obtain ⟨x, hx, h2⟩ := hg.right i r hr
        have := (List.getElem?_eq_some_iff.1 hx).1
        exact ⟨x, by rw [List.getElem?_append_left this]; exact hx, h2⟩
      · intro k' hk'
        cases hk'
        exact ⟨l, by simp [← hl], hi0⟩
    | last k i hp he => exact h.set (.refl _) rfl ⟨q, done, hq, hg.move (k := k) (by rw [hp]; rfl) rfl⟩
    | other k i e hp he => exact h.set (.refl _) rfl ⟨q, done, hq, hg.move (k := k) (by rw [hp]; rfl) rfl⟩
    | own k i a e hp he => exact h.set (.refl _) rfl ⟨q, done, hq, hg.move (k := k) (by rw [hp]; rfl) (by split <;> rfl)⟩
    | incLoad k i e hp he => exact h.set (.refl _) rfl ⟨q, done, hq, hg.move (k := k) (by rw [hp]; rfl) rfl⟩
    | incStore k i a hp => exact h.set (setAge_same _ _ _) rfl ⟨q, done, hq, hg.move (k := k) (by rw [hp]; rfl) rfl⟩
    | reset k e hp he =>
      refine h.set (setAge_same _ _ _) rfl ⟨q, done, hq, ?_⟩
      obtain ⟨l, hl, hi⟩ := hg.pending k (by rw [hp]; rfl)
      have hlen := hg.length
      simp only [hp, reduceCtorEq, if_false] at hlen
      refine ⟨hg.split, by simp [hlen], ?_, fun k hk => by simp [PC.elem] at hk⟩
      intro i r hr
      simp only at hr
      rw [List.getElem?_append] at hr
      split at hr
      · exact hg.right i r hr
      · rename_i hlt
        have hi0 : i - t.out.length = 0 := by
          have := (List.getElem?_eq_some_iff.1 hr).1
          simp at this; omega
        rw [hi0] at hr
        cases hr
        have : i = t.out.length := by omega
        subst this
        obtain ⟨e', he', hv⟩ := h.1.value he
        exact ⟨_, hl, by simp only [Right, (index_call hi he').1, hv]⟩

/-- C121: whatever the schedule, lookups change nothing but ages, and all answers of `has_label` and `get` are right (also those of `age`
about labels that are missing). -/
theorem C121_values (c : Cache L V) (qs : List (List (Query L))) (sched : List Nat) :
    let s := run sched (init c qs)
    SameButAges s.c c ∧ ∀ (j : Nat) (t : Thread L V), s.ts[j]? = some t →
      ∃ q, qs[j]? = some q ∧ t.out.length ≤ q.length ∧ ∀ (i : Nat) r, t.out[i]? = some r → ∃ x, q[i]? = some x ∧ Right c x r := by
  intro s
  have h : AllGood c qs s := by
    refine run_keeps (P := AllGood c qs) (fun s j h => h.step j) sched _ ⟨.refl _, ?_⟩
    intro j t ht
    simp only [init, List.getElem?_map, Option.map_eq_some_iff] at ht
    obtain ⟨q, h1, rfl⟩ := ht
    exact ⟨q, [], h1, rfl, rfl, by simp, by simp [PC.elem]⟩
  refine ⟨h.1, fun j t ht => ?_⟩
  obtain ⟨q, done, hq, hg⟩ := h.2 j t ht
  have hlen := hg.length
  refine ⟨q, hq, ?_, ?_⟩
  · rw [hg.split, List.length_append]; omega
  · intro i r hr
    obtain ⟨x, hx, h2⟩ := hg.right i r hr
    have := (List.getElem?_eq_some_iff.1 hx).1
    exact ⟨x, by rw [hg.split, List.getElem?_append_left this]; exact hx, h2⟩

/-! ## Races -/

/-- Thread `j` accessed the age with index `i`. -/
def Touched (s : St L V) (j i : Nat) : Prop := ∃ w, (j, i, w) ∈ s.log

/-- The index that the loop of a thread has come to. -/
def PC.upto (n : Nat) : PC → Nat
  | .idle => 0
  | .other _ i => i
  | .own _ i _ | .incLoad _ i | .incStore _ i _ => i
  | .reset _ => n

structure Traced (c0 : Cache L V) (s : St L V) : Prop where
  size : s.c.elements.length = c0.elements.length
  loop : ∀ (j : Nat) (t : Thread L V), s.ts[j]? = some t → ∀ i, i < t.pc.upto c0.elements.length → i < c0.elements.length → Touched s j i
  here : ∀ (j : Nat) (t : Thread L V) (k i : Nat), s.ts[j]? = some t → ((∃ a, t.pc = .own k i a ∨ t.pc = .incStore k i a) ∨ t.pc = .incLoad k i) →
    Touched s j i
  done : ∀ (j : Nat) (t : Thread L V), s.ts[j]? = some t → (∃ v, Res.ok (Out.val v) ∈ t.out) →
    (∀ i, i < c0.elements.length → Touched s j i) ∧ ∃ k, k < c0.elements.length ∧ (j, k, true) ∈ s.log

theorem length_setAge (c : Cache L V) (i a : Nat) : (setAge c i a).elements.length = c.elements.length := by
  simp [setAge]

theorem Traced.move {s s' : St L V} (h : Traced c0 s) {j : Nat} {t t' : Thread L V} (ht : s.ts[j]? = some t)
    (hts : s'.ts = s.ts.set j t') (hsize : s'.c.elements.length = s.c.elements.length) (hlog : ∀ x ∈ s.log, x ∈ s'.log)
    (hloop : ∀ i, i < t'.pc.upto c0.elements.length → i < c0.elements.length → i < t.pc.upto c0.elements.length ∨ Touched s' j i)
    (hhere : ∀ k i, ((∃ a, t'.pc = .own k i a ∨ t'.pc = .incStore k i a) ∨ t'.pc = .incLoad k i) → Touched s' j i)
    (hdone : (∃ v, Res.ok (Out.val v) ∈ t'.out) → (∃ v, Res.ok (Out.val v) ∈ t.out) ∨
      ((∀ i, i < c0.elements.length → Touched s' j i) ∧ ∃ k, k < c0.elements.length ∧ (j, k, true) ∈ s'.log)) : Traced c0 s' := by
  have hto : ∀ {j i}, Touched s j i → Touched s' j i := fun ⟨w, hw⟩ => ⟨w, hlog _ hw⟩
  refine ⟨hsize.trans h.size, ?_, ?_, ?_⟩
  · rw [hts]
    refine forall_set (P := fun j (t : Thread L V) => ∀ i, i < t.pc.upto c0.elements.length → i < c0.elements.length → Touched s' j i) ?_ ?_
    · intro j t ht _ i h1 h2; exact hto (h.loop j t ht i h1 h2)
    · intro i h1 h2
      rcases hloop i h1 h2 with h3 | h3
      · exact hto (h.loop j t ht i h3 h2)
      · exact h3
  · intro j' t'' k i
    rw [hts]
    revert j' t''
    have := forall_set (ts := s.ts) (j := j) (t' := t') (P := fun j (t : Thread L V) => ∀ k i,
      ((∃ a, t.pc = .own k i a ∨ t.pc = .incStore k i a) ∨ t.pc = .incLoad k i) → Touched s' j i)
      (fun j t ht _ k i h1 => hto (h.here j t k i ht h1)) hhere
    intro j' t'' h1 h2
    exact this j' t'' h1 k i h2
  · rw [hts]
    refine forall_set (P := fun j (t : Thread L V) => (∃ v, Res.ok (Out.val v) ∈ t.out) →
      (∀ i, i < c0.elements.length → Touched s' j i) ∧ ∃ k, k < c0.elements.length ∧ (j, k, true) ∈ s'.log) ?_ ?_
    · intro j t ht _ hv
      obtain ⟨h1, k, h2, h3⟩ := h.done j t ht hv
      exact ⟨fun i hi => hto (h1 i hi), k, h2, hlog _ h3⟩
    · intro hv
      rcases hdone hv with h1 | h1
      · obtain ⟨h1, k, h2, h3⟩ := h.done j t ht h1
        exact ⟨fun i hi => hto (h1 i hi), k, h2, hlog _ h3⟩
      · exact h1

theorem Traced.step {s : St L V} (h : Traced c0 s) (j : Nat) : Traced c0 (step j s) := by
  cases ht : s.ts[j]? with
  | none => unfold Threads.step; simp only [ht]; exact h
  | some t =>
    have hm := step_moves ht
    generalize Threads.step j s = s' at hm
    have hn := h.size
    cases hm with
    | none => exact h
    | has l rest hp htd =>
      exact h.move ht rfl rfl (fun _ hx => hx) (by simp [PC.upto]) (by simp) (fun hv => .inl (by simpa using hv))
    | missing x l rest hp htd hx hi =>
      exact h.move ht rfl rfl (fun _ hx => hx) (by simp [PC.upto]) (by simp) (fun hv => .inl (by simpa using hv))
    | age l rest k e hp htd hi he =>
      exact h.move ht rfl rfl (fun _ hx => List.mem_append_left _ hx) (by simp [PC.upto]) (by simp) (fun hv => .inl (by simpa using hv))
    | get l rest k hp htd hi =>
      exact h.move ht rfl rfl (fun _ hx => hx) (by simp [PC.upto]) (by simp) .inl
    | last k i hp he =>
      have : s.c.elements.length ≤ i := List.getElem?_eq_none_iff.1 he
      refine h.move ht rfl rfl (fun _ hx => hx) ?_ (by simp) .inl
      intro m _ hm
      left; rw [hp]; show m < i; omega
    | other k i e hp he =>
      refine h.move ht rfl rfl (fun _ hx => List.mem_append_left _ hx) ?_ ?_ .inl
      · intro m h1 _; left; rw [hp]; exact h1
      · intro k' i' hh
        have : i' = i := by simp at hh; exact hh.2.symm
        subst this
        exact ⟨false, List.mem_append_right _ (by simp)⟩
    | own k i a e hp he =>
      have hi := h.here j t k i ht (.inl ⟨a, .inl hp⟩)
      refine h.move ht rfl rfl (fun _ hx => List.mem_append_left _ hx) ?_ ?_ .inl
      · intro m h1 _
        simp only at h1
        by_cases hlt : m < i
        · left; rw [hp]; exact hlt
        · have : m = i := by
            split at h1
            · exact absurd h1 hlt
            · have h1 : m < i + 1 := h1; omega
          subst this
          obtain ⟨w, hw⟩ := hi
          exact .inr ⟨w, List.mem_append_left _ hw⟩
      · intro k' i' hh
        have : i' = i := by
          simp only at hh
          split at hh <;> simp at hh
          exact hh.2.symm
        subst this
        obtain ⟨w, hw⟩ := hi
        exact ⟨w, List.mem_append_left _ hw⟩
    | incLoad k i e hp he =>
      have hi := h.here j t k i ht (.inr hp)
      refine h.move ht rfl rfl (fun _ hx => List.mem_append_left _ hx) ?_ ?_ .inl
      · intro m h1 _; left; rw [hp]; exact h1
      · intro k' i' hh
        have : i' = i := by simp at hh; exact hh.2.symm
        subst this
        exact ⟨false, List.mem_append_right _ (by simp)⟩
    | incStore k i a hp =>
      have hi := h.here j t k i ht (.inl ⟨a, .inr hp⟩)
      refine h.move ht rfl (length_setAge _ _ _) (fun _ hx => List.mem_append_left _ hx) ?_ (by simp) .inl
      intro m h1 _
      have h1 : m < i + 1 := h1
      by_cases hlt : m < i
      · left; rw [hp]; exact hlt
      · have : m = i := by omega
        subst this
        obtain ⟨w, hw⟩ := hi
        exact .inr ⟨w, List.mem_append_left _ hw⟩
    | reset k e hp he =>
      refine h.move ht rfl (length_setAge _ _ _) (fun _ hx => List.mem_append_left _ hx) (by simp [PC.upto]) (by simp) ?_
      intro _
      refine .inr ⟨?_, k, ?_, List.mem_append_right _ (by simp)⟩
      · intro i hi
        obtain ⟨w, hw⟩ := h.loop j t ht i (by rw [hp]; exact hi) hi
        exact ⟨w, List.mem_append_left _ hw⟩
      · have := (List.getElem?_eq_some_iff.1 he).1; omega

/-- C121: two threads that have each got a value have raced, whatever the schedule and the labels (the class has no synchronisation; with a
mutex around the calls the accesses are ordered). -/
theorem C121_race_refuted (c : Cache L V) (qs : List (List (Query L))) (sched : List Nat) (j j' : Nat) (hj : j ≠ j') (t t' : Thread L V)
    (ht : (run sched (init c qs)).ts[j]? = some t) (ht' : (run sched (init c qs)).ts[j']? = some t')
    (hv : ∃ v, Res.ok (Out.val v) ∈ t.out) (hv' : ∃ v, Res.ok (Out.val v) ∈ t'.out) : Race (run sched (init c qs)) := by
  have h : Traced c (run sched (init c qs)) := by
    refine run_keeps (P := Traced c) (fun s j h => h.step j) sched _ ?_
    have hts : ∀ (j : Nat) (t : Thread L V), (init c qs).ts[j]? = some t → t.pc = .idle ∧ t.out = [] := by
      intro j t ht
      simp only [init, List.getElem?_map, Option.map_eq_some_iff] at ht
      obtain ⟨q, _, rfl⟩ := ht
      exact ⟨rfl, rfl⟩
    refine ⟨rfl, ?_, ?_, ?_⟩
    · intro j t ht i hi; rw [(hts j t ht).1] at hi; cases hi
    · intro j t k i ht hh; rw [(hts j t ht).1] at hh; simp at hh
    · intro j t ht hh; rw [(hts j t ht).2] at hh; simp at hh
  obtain ⟨_, k, hk, hkl⟩ := h.done j t ht hv
  obtain ⟨h1, _⟩ := h.done j' t' ht' hv'
  obtain ⟨w, hw⟩ := h1 k hk
  exact ⟨j, j', k, w, hj, hkl, hw⟩

/-- Whose accesses there can be. -/
structure Fair (qs : List (List (Query L))) (s : St L V) : Prop where
  split : ∀ (j : Nat) (t : Thread L V), s.ts[j]? = some t → ∃ done, qs[j]? = some (done ++ t.todo) ∧ (t.pc ≠ .idle → ∃ l, Query.get l ∈ done)
  log : ∀ j i w, (j, i, w) ∈ s.log → ∃ q, qs[j]? = some q ∧ ((∃ l, Query.get l ∈ q) ∨ (w = false ∧ ∃ l, Query.age l ∈ q))

theorem Fair.move {s s' : St L V} (h : Fair qs s) {j : Nat} {t' : Thread L V} (hts : s'.ts = s.ts.set j t')
    (h' : ∃ done, qs[j]? = some (done ++ t'.todo) ∧ (t'.pc ≠ .idle → ∃ l, Query.get l ∈ done))
    (hlog : s'.log = s.log ∨ ∃ i w, s'.log = s.log ++ [(j, i, w)] ∧
      ∃ q, qs[j]? = some q ∧ ((∃ l, Query.get l ∈ q) ∨ (w = false ∧ ∃ l, Query.age l ∈ q))) : Fair qs s' := by
  refine ⟨?_, ?_⟩
  · rw [hts]
    exact forall_set (P := fun j (t : Thread L V) => ∃ done, qs[j]? = some (done ++ t.todo) ∧ (t.pc ≠ .idle → ∃ l, Query.get l ∈ done))
      (fun j t ht _ => h.split j t ht) h'
  · intro j' i' w' hm
    rcases hlog with h1 | ⟨i, w, h1, h2⟩
    · rw [h1] at hm; exact h.log j' i' w' hm
    · rw [h1] at hm
      rcases List.mem_append.1 hm with hm | hm
      · exact h.log j' i' w' hm
      · simp only [List.mem_singleton, Prod.mk.injEq] at hm
        obtain ⟨rfl, rfl, rfl⟩ := hm
        exact h2

theorem Fair.step {s : St L V} (h : Fair qs s) (j : Nat) : Fair qs (step j s) := by
  cases ht : s.ts[j]? with
  | none => unfold Threads.step; simp only [ht]; exact h
  | some t =>
    have hm := step_moves ht
    generalize Threads.step j s = s' at hm
    obtain ⟨done, hq, hd⟩ := h.split j t ht
    have busy : t.pc ≠ .idle → ∃ q, qs[j]? = some q ∧ ∃ l, Query.get l ∈ q := by
      intro hp
      obtain ⟨l, hl⟩ := hd hp
      exact ⟨_, hq, l, List.mem_append_left _ hl⟩
    have acc : t.pc ≠ .idle → ∀ w, ∃ q, qs[j]? = some q ∧ ((∃ l, Query.get l ∈ q) ∨ (w = false ∧ ∃ l, Query.age l ∈ q)) := by
      intro hp w
      obtain ⟨q, h1, h2⟩ := busy hp
      exact ⟨q, h1, .inl h2⟩
    cases hm with
    | none => exact h
    | has l rest hp htd => exact h.move rfl ⟨done ++ [.has l], by simp [hq, htd], by simp⟩ (.inl rfl)
    | missing x l rest hp htd hx hi => exact h.move rfl ⟨done ++ [x], by simp [hq, htd], by simp⟩ (.inl rfl)
    | age l rest k e hp htd hi he =>
      exact h.move rfl ⟨done ++ [.age l], by simp [hq, htd], by simp⟩
        (.inr ⟨k, false, rfl, _, hq, .inr ⟨rfl, l, by simp [htd]⟩⟩)
    | get l rest k hp htd hi => exact h.move rfl ⟨done ++ [.get l], by simp [hq, htd], fun _ => ⟨l, by simp⟩⟩ (.inl rfl)
    | last k i hp he =>
      have hb : t.pc ≠ .idle := by rw [hp]; simp
      exact h.move rfl ⟨done, hq, fun _ => hd hb⟩ (.inl rfl)
    | other k i e hp he =>
      have hb : t.pc ≠ .idle := by rw [hp]; simp
      exact h.move rfl ⟨done, hq, fun _ => hd hb⟩ (.inr ⟨_, _, rfl, acc hb _⟩)
    | own k i a e hp he =>
      have hb : t.pc ≠ .idle := by rw [hp]; simp
      exact h.move rfl ⟨done, hq, fun _ => hd hb⟩ (.inr ⟨_, _, rfl, acc hb _⟩)
    | incLoad k i e hp he =>
      have hb : t.pc ≠ .idle := by rw [hp]; simp
      exact h.move rfl ⟨done, hq, fun _ => hd hb⟩ (.inr ⟨_, _, rfl, acc hb _⟩)
    | incStore k i a hp =>
      have hb : t.pc ≠ .idle := by rw [hp]; simp
      exact h.move rfl ⟨done, hq, fun _ => hd hb⟩ (.inr ⟨_, _, rfl, acc hb _⟩)
    | reset k e hp he =>
      have hb : t.pc ≠ .idle := by rw [hp]; simp
      exact h.move rfl ⟨done, hq, fun _ => hd hb⟩ (.inr ⟨_, _, rfl, acc hb _⟩)

theorem fair_run (c : Cache L V) (qs : List (List (Query L))) (sched : List Nat) : Fair qs (run sched (init c qs)) := by
  refine run_keeps (P := Fair qs) (fun s j h => h.step j) sched _ ⟨?_, by simp [init]⟩
  intro j t ht
  simp only [init, List.getElem?_map, Option.map_eq_some_iff] at ht
  obtain ⟨q, h1, rfl⟩ := ht
  exact ⟨[], h1, by simp⟩

/-- C121: there is a race only if one thread calls `get` and another one `get` or `age`; `has_label` never races with lookups. -/
theorem C121_readers (c : Cache L V) (qs : List (List (Query L))) (sched : List Nat) (h : Race (run sched (init c qs))) :
    ∃ (j j' : Nat) (q q' : List (Query L)), j ≠ j' ∧ qs[j]? = some q ∧ qs[j']? = some q' ∧ (∃ l, Query.get l ∈ q) ∧ ∃ l, Query.get l ∈ q' ∨ Query.age l ∈ q' := by
  obtain ⟨j, j', i, w, hj, h1, h2⟩ := h
  have hf := fair_run c qs sched
  obtain ⟨q, hq, hg⟩ := hf.log _ _ _ h1
  obtain ⟨q', hq', hg'⟩ := hf.log _ _ _ h2
  refine ⟨j, j', q, q', hj, hq, hq', ?_, ?_⟩
  · rcases hg with hg | ⟨hw, _⟩
    · exact hg
    · cases hw
  · rcases hg' with ⟨l, hl⟩ | ⟨_, l, hl⟩
    · exact ⟨l, .inl hl⟩
    · exact ⟨l, .inr hl⟩

/-- Without `get` there is nothing to lock. -/
theorem C121_noGet_partial (c : Cache L V) (qs : List (List (Query L))) (h : ∀ q ∈ qs, ∀ l, Query.get l ∉ q) (sched : List Nat) :
    Locked sched (init c qs) := by
  have key : ∀ (sched : List Nat) (s : St L V), Fair qs s → Locked sched s := by
    intro sched
    induction sched with
    | nil => intro s _; trivial
    | cons j js ih =>
      intro s hf
      refine ⟨?_, ih _ (hf.step j)⟩
      intro j' t ht hp
      obtain ⟨done, hq, hd⟩ := hf.split j' t ht
      obtain ⟨l, hl⟩ := hd hp
      exact absurd (List.mem_append_left _ hl) (h _ (List.mem_of_getElem? hq) l)
  exact key sched _ (fair_run c qs [])

end Helper.LRU.Threads
