import Verif.Shared.Props
set_option linter.unusedSectionVars false
/-!
# Property C78: constructors of `SharedArray` that throw (array.hpp:231-236)

Here allocations and element assignments may throw. A constructor that delegates to another one has a complete
object as soon as the other one has returned, so an exception from its own body runs the destructor of line 231.
-/
namespace Helper.Shared

variable {V : Type}

/-- What throws during the construction, if anything does. -/
inductive Fault where
  | nothing
  /-- `new size_t(1u)` -/ | counter
  /-- `new T[n]`, in the allocation or in a default constructor; `new[]` then releases what it has obtained -/ | buffer
  /-- the assignment to element `k` -/ | element (k : Nat)
deriving DecidableEq, Repr

/-- Line 232: the members are initialised in the order of their declaration in line 229. -/
def ctorF (e : Exn) (dflt : V) (f : Fault) (n : Nat) (s : St V) : Res Unit × St V :=
  match f with
  | .counter => (.exn e, s)
  | .buffer => (.exn e, { s with cnts := upd s.cnts s.next (some 1), next := s.next + 1 })
  | _ => (.ok (), newArray (List.replicate n dflt) s)

/-- Lines 234 and 236: `_ptr[i] = vs[i]`, from index `i` on; `o` is the object under construction. -/
def assignLoop (e : Exn) (f : Fault) (o : Obj) : Nat → List V → St V → Res Unit × St V
  | _, [], s => (.ok (), s)
  | i, v :: vs, s =>
    if f = .element i then (.exn e, s)
    else
      match s.bufs o.ptr with
      | none => (.ub .dangling, s)
      | some l => if i < l.length then assignLoop e f o (i + 1) vs { s with bufs := upd s.bufs o.ptr (some (l.set i v)) } else (.ub .outOfBounds, s)

/-- Lines 233-236: delegate to line 232, then assign the elements (`vs` is `n` times the given value in line 234). If an assignment
throws, the destructor runs on the new variable, which is the last one. -/
def ctorListF (e : Exn) (dflt : V) (f : Fault) (vs : List V) (s : St V) : Res Unit × St V :=
  match ctorF e dflt f vs.length s with
  | (.ok (), s1) =>
    match assignLoop e f ⟨s.next, vs.length, s.next⟩ 0 vs s1 with
    | (.exn e', s2) =>
      match op dflt (.destroy s.vars.length) s2 with
      | .ok s3 => (.exn e', s3)
      -- leaving a destructor by an exception terminates the program
      | .exn _ => (.abort, s2)
      | .ub u => (.ub u, s2)
      | .abort => (.abort, s2)
    | r => r
  | r => r

/-! Specification: a constructor that throws has no effect on what is allocated. -/

/-- Nothing is allocated or released between the two states. -/
def SameHeap (s s' : St V) : Prop := s'.vars = s.vars ∧ ∀ i, s'.bufs i = s.bufs i ∧ s'.cnts i = s.cnts i

/-- Ownership is well-formed as in C33. -/
def Fresh (s : St V) : Prop := ∀ i, s.next ≤ i → s.bufs i = none ∧ s.cnts i = none

theorem assignLoop_ok {e : Exn} {f : Fault} (o : Obj) (b : Nat) (ho : o.ptr = b) : ∀ (vs done rest : List V) (s : St V),
    s.bufs b = some (done ++ rest) → rest.length = vs.length → (∀ k, f = .element k → done.length + vs.length ≤ k ∨ k < done.length) →
    ∃ s', assignLoop e f o done.length vs s = (.ok (), s') ∧ s'.vars = s.vars ∧ s'.cnts = s.cnts ∧ s'.next = s.next ∧
      s'.bufs = upd s.bufs b (some (done ++ vs)) := by
  subst ho
  intro vs
  induction vs with
  | nil =>
    intro done rest s hb hl _
    refine ⟨s, rfl, rfl, rfl, rfl, ?_⟩
    obtain rfl : rest = [] := List.length_eq_zero_iff.1 hl
    funext i
    by_cases h : i = o.ptr
    · subst h; simp [upd, hb]
    · simp [upd, h]
  | cons v vs ih =>
    intro done rest s hb hl hf
    obtain ⟨r, rest, rfl⟩ : ∃ r rest', rest = r :: rest' := by cases rest with
      | nil => simp at hl
      | cons r rest => exact ⟨r, rest, rfl⟩
    have hne : f ≠ .element done.length := by
      intro h
      rcases hf _ h with h | h
      · simp at h; omega
      · omega
    obtain ⟨s', h1, h2, h3, h4, h5⟩ := ih (done ++ [v]) rest { s with bufs := upd s.bufs o.ptr (some ((done ++ r :: rest).set done.length v)) }
      (by simp [upd]) (by simpa using hl) (by
        intro k hk
        rcases hf k hk with h | h
        · left; simp at h ⊢; omega
        · right; simp; omega)
    refine ⟨s', ?_, h2, h3, h4, ?_⟩
    · simp only [assignLoop, if_neg hne, hb]
      rw [if_pos (by simp)]
      simpa using h1
    · rw [h5]
      funext i
      by_cases h : i = o.ptr
      · simp [upd, h]
      · simp [upd, h]

theorem assignLoop_throws {e : Exn} {k : Nat} (o : Obj) : ∀ (vs : List V) (i : Nat) (l : List V) (s : St V),
    s.bufs o.ptr = some l → i + vs.length ≤ l.length → i ≤ k → k < i + vs.length →
    ∃ s', assignLoop e (.element k) o i vs s = (.exn e, s') ∧ s'.vars = s.vars ∧ s'.cnts = s.cnts ∧ ∃ l', s'.bufs o.ptr = some l' := by
  intro vs
  induction vs with
  | nil => intro i l s _ _ h1 h2; simp at h2; omega
  | cons v vs ih =>
    intro i l s hb hl h1 h2
    by_cases h : k = i
    · subst h
      exact ⟨s, by simp [assignLoop], rfl, rfl, l, hb⟩
    · have hne : Fault.element k ≠ Fault.element i := fun he => h (Fault.element.inj he)
      obtain ⟨s', h1, h2, h3, h4⟩ := ih (i + 1) (l.set i v) { s with bufs := upd s.bufs o.ptr (some (l.set i v)) } (by simp [upd])
        (by simp at hl ⊢; omega) (by omega) (by simp at h2 ⊢; omega)
      refine ⟨s', ?_, h2, h3, h4⟩
      simp only [assignLoop, if_neg hne, hb]
      rw [if_pos (by simp at hl; omega)]
      exact h1

/-- C78, the part that holds: a construction during which nothing throws agrees with the operation of C33. -/
theorem C78_nothing_throws_partial (e : Exn) (dflt : V) (vs : List V) (n : Nat) (s : St V) :
    ctorF e dflt .nothing n s = (.ok (), newArray (List.replicate n dflt) s) ∧
    ctorListF e dflt .nothing vs s = (.ok (), newArray vs s) := by
  refine ⟨rfl, ?_⟩
  obtain ⟨s', h1, h2, h3, h4, h5⟩ := assignLoop_ok (e := e) (f := .nothing) ⟨s.next, vs.length, s.next⟩ s.next rfl vs [] (List.replicate vs.length dflt)
    (newArray (List.replicate vs.length dflt) s) (by simp [newArray, upd]) (by simp) (fun k hk => by cases hk)
  simp only [ctorListF, ctorF]
  rw [show (0 : Nat) = ([] : List V).length from rfl, h1]
  obtain ⟨bufs, cnts, next, vars⟩ := s'
  simp only at h2 h3 h4 h5
  subst h2 h3 h4 h5
  simp only [newArray, List.length_replicate, List.nil_append, Prod.mk.injEq, true_and, St.mk.injEq, and_self, and_true]
  funext i
  by_cases h : i = s.next <;> simp [upd, h]

/-- C78, the part that holds: if the allocation of the counter throws, nothing has changed. -/
theorem C78_counter_partial (e : Exn) (dflt : V) (vs : List V) (n : Nat) (s : St V) :
    ctorF e dflt .counter n s = (.exn e, s) ∧ ctorListF e dflt .counter vs s = (.exn e, s) := ⟨rfl, rfl⟩

example : (ctorListF .badAlloc (0 : Nat) .nothing [4, 5] St.init).1 = .ok () ∧
    (ctorListF .badAlloc (0 : Nat) .nothing [4, 5] St.init).2.bufs 0 = some [4, 5] := by decide +kernel

/-- C78 refuted: if `new T[n]` throws, in any of the constructors and in any state, the counter is lost: it stays
allocated and no variable refers to it. -/
theorem C78_buffer_refuted (e : Exn) (dflt : V) (vs : List V) (n : Nat) (s : St V) (hs : Fresh s) (hv : ∀ o ∈ s.vars, o.cnt < s.next) :
    ∃ s', ctorF e dflt .buffer n s = (.exn e, s') ∧ ctorListF e dflt .buffer vs s = (.exn e, s') ∧
      s'.cnts s.next = some 1 ∧ s.cnts s.next = none ∧ (∀ o ∈ s'.vars, o.cnt ≠ s.next) ∧ ¬ SameHeap s s' := by
  refine ⟨_, rfl, rfl, by simp [upd], (hs _ (Nat.le_refl _)).2, fun o ho => Nat.ne_of_lt (hv o ho), fun h => ?_⟩
  have := (h.2 s.next).2
  rw [(hs _ (Nat.le_refl _)).2] at this
  simp [upd] at this

/-- C78 refuted: if the assignment of any element throws, the destructor runs and the behaviour is undefined. -/
theorem C78_element_refuted (e : Exn) (dflt : V) (vs : List V) (k : Nat) (hk : k < vs.length) (s : St V) :
    (ctorListF e dflt (.element k) vs s).1 = .ub .outOfBounds := by
  obtain ⟨s', h1, h2, _⟩ := assignLoop_throws (e := e) (k := k) ⟨s.next, vs.length, s.next⟩ vs 0 (List.replicate vs.length dflt)
    (newArray (List.replicate vs.length dflt) s) (by simp [newArray, upd]) (by simp) (Nat.zero_le _) (by omega)
  simp only [ctorListF, ctorF, h1, op, h2]
  simp [newArray]

example : (ctorListF .badAlloc (0 : Nat) (.element 1) [4, 5] St.init).1 = .ub .outOfBounds ∧
    (ctorF .badAlloc (0 : Nat) .buffer 2 St.init).2.cnts 0 = some 1 ∧ Fresh (St.init : St Nat) := by
  exact ⟨by decide +kernel, by decide +kernel, fun _ _ => ⟨rfl, rfl⟩⟩

/-- C78: an element beyond the end is not assigned, so its fault does not happen. -/
theorem C78_element_beyond_partial (e : Exn) (dflt : V) (vs : List V) (k : Nat) (hk : vs.length ≤ k) (s : St V) :
    (ctorListF e dflt (.element k) vs s).1 = .ok () := by
  obtain ⟨s', h1, _⟩ := assignLoop_ok (e := e) (f := .element k) ⟨s.next, vs.length, s.next⟩ s.next rfl vs [] (List.replicate vs.length dflt)
    (newArray (List.replicate vs.length dflt) s) (by simp [newArray, upd]) (by simp) (fun k' hk' => by
      cases hk'; left; simpa using hk)
  simp only [ctorListF, ctorF]
  rw [show (0 : Nat) = ([] : List V).length from rfl, h1]

end Helper.Shared
