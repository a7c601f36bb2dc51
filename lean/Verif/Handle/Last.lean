import Verif.Handle.Props
/-!
# C72: what is read through a handle is what was last written to its object
-/
set_option linter.unusedSectionVars false
namespace Helper.Handle

variable {V : Type}

/-! Specification: a store in which nothing is ever deleted. -/

/-- The object `q`, if there is one, gets the class and value of `v`. -/
def put (m : Nat → Option (Nat × V)) (q : Nat) : Option (Nat × V) → Nat → Option (Nat × V)
  | some cv => upd m q (some cv)
  | none => m

/-- What is written to objects by an operation in state `s`: `create` makes object `s.next`; a non-const accessor of a handle makes
object `s.next` as a copy of the object behind the handle; a change through a reference or pointer replaces the value. -/
def note (s : St V) (m : Nat → Option (Nat × V)) : Op V → Nat → Option (Nat × V)
  | .create c v => upd m s.next (some (c, v))
  | .ref x none | .managed x none =>
    match s.hs[x]? with
    | some (some (some o)) => put m s.next (m o)
    | _ => m
  | .writeRef r v =>
    match s.refs[r]? with
    | some (o, true) => put m o ((m o).map fun cv => (cv.1, v))
    | _ => m
  | .writePtr p v =>
    match s.ps[p]? with
    | some (some o) => put m o ((m o).map fun cv => (cv.1, v))
    | _ => m
  | _ => m

/-- The class and value last written to every object in the course of a history. -/
def memory (C : Classes) : List (Op V) → St V → (Nat → Option (Nat × V)) → Nat → Option (Nat × V)
  | [], _, m => m
  | o :: os, s, m =>
    match step C o s with
    | (.ub _, _) => note s m o
    | (_, s') => memory C os s' (note s m o)

/-! Proofs. -/

theorem drop_sub {s : St V} {p : Option Nat} {o : Nat} {cv : Nat × V} (h : (s.drop p).objs o = some cv) : s.objs o = some cv := by
  rcases drop_objs s p o with h' | ⟨_, _, h'⟩
  · rw [← h', h]
  · rw [h'] at h; cases h

theorem write_note {s : St V} {m : Nat → Option (Nat × V)} (hm : ∀ o cv, s.objs o = some cv → m o = some cv) {o : Nat} {v : V}
    {q : Nat} {cv : Nat × V} (h : (writeObj o v s).2.objs q = some cv) :
    put m o ((m o).map fun cv => (cv.1, v)) q = some cv := by
  unfold writeObj at h
  split at h
  · rename_i hn
    have hq : q ≠ o := by rintro rfl; rw [hn] at h; cases h
    cases m o with
    | none => exact hm q cv h
    | some w => rw [Option.map_some, put, upd_other _ _ hq]; exact hm q cv h
  · rename_i c w hc
    rw [hm o _ hc, Option.map_some, put]
    simp only at h
    by_cases hq : q = o
    · subst hq
      rw [upd_same] at h ⊢
      exact h
    · rw [upd_other _ _ hq] at h ⊢
      exact hm q cv h

theorem makeUnique_note {s : St V} (hi : Inv s) {m : Nat → Option (Nat × V)} (hm : ∀ o cv, s.objs o = some cv → m o = some cv)
    {x : Nat} {fail : Option Exn} {q : Nat} {cv : Nat × V} (h : (makeUnique fail x s).2.objs q = some cv) :
    (fail ≠ none ∨ (∀ o, s.hs[x]? ≠ some (some (some o)))) ∧ m q = some cv ∨
    ∃ o, fail = none ∧ s.hs[x]? = some (some (some o)) ∧ put m s.next (m o) q = some cv := by
  rcases obj_cases s x with ⟨_, ho, hne⟩ | ⟨hx, ho⟩ | ⟨o, hx, ho⟩
  · left
    simp only [makeUnique, ho] at h
    exact ⟨.inr fun o => hne (some o), hm q cv h⟩
  · left
    simp only [makeUnique, ho] at h
    exact ⟨.inr fun o => by rw [hx]; simp, hm q cv h⟩
  · cases fail with
    | some e =>
      left
      rw [makeUnique_fail hx] at h
      exact ⟨.inl (by simp), hm q cv h⟩
    | none =>
      right
      obtain ⟨cv', hc⟩ := hi.alive o (.inl ⟨x, hx⟩)
      rw [makeUnique_ok hx hc] at h
      refine ⟨o, rfl, hx, ?_⟩
      rw [hm o _ hc, put]
      have h := drop_sub h
      simp only at h
      by_cases hq : q = s.next
      · subst hq
        rw [upd_same] at h ⊢
        exact h
      · rw [upd_other _ _ hq] at h ⊢
        exact hm q cv h

theorem step_note (C : Classes) {s : St V} (hi : Inv s) {m : Nat → Option (Nat × V)}
    (hm : ∀ o cv, s.objs o = some cv → m o = some cv) (op : Op V) {q : Nat} {cv : Nat × V}
    (h : (step C op s).2.objs q = some cv) : note s m op q = some cv := by
  cases op with
  | create c v =>
    simp only [step, create] at h
    simp only [note]
    by_cases hq : q = s.next
    · subst hq; rw [upd_same] at h ⊢; exact h
    · rw [upd_other _ _ hq] at h ⊢; exact hm q cv h
  | null => exact hm q cv h
  | fromPtr p => simp only [step] at h; split at h <;> exact hm q cv h
  | copy y => simp only [step] at h; split at h <;> exact hm q cv h
  | move y => simp only [step] at h; split at h <;> exact hm q cv h
  | assign x y =>
    simp only [step] at h
    split at h
    · exact hm q cv (by have := drop_sub h; exact this)
    · exact hm q cv h
  | moveAssign x y =>
    simp only [step] at h
    split at h
    · split at h
      · exact hm q cv h
      · exact hm q cv (by have := drop_sub h; exact this)
    · exact hm q cv h
  | destroy x =>
    simp only [step] at h
    split at h
    · exact hm q cv (by have := drop_sub h; exact this)
    · exact hm q cv h
  | cref x => simp only [step] at h; split at h <;> exact hm q cv h
  | cmanaged x => simp only [step] at h; split at h <;> exact hm q cv h
  | resetPtr p =>
    simp only [step] at h
    split at h
    · exact hm q cv h
    · exact hm q cv (by have := drop_sub h; exact this)
  | extract i t x =>
    simp only [step] at h
    split at h
    · split at h
      · exact hm q cv h
      · split at h <;> exact hm q cv h
    all_goals exact hm q cv h
  | writeRef r v =>
    simp only [step] at h
    simp only [note]
    split at h
    · rename_i o hr; rw [hr]; exact write_note hm h
    · rename_i hr
      have h := hm q cv h
      rcases hx : s.refs[r]? with _ | ⟨o, _ | _⟩
      · exact h
      · exact h
      · exact absurd hx (hr o)
  | writePtr p v =>
    simp only [step] at h
    simp only [note]
    split at h
    · rename_i o hr; rw [hr]; exact write_note hm h
    · rename_i hr; rw [hr]; exact hm q cv h
    · rename_i hr; rw [hr]; exact hm q cv h
  | ref x fail =>
    have h' : (makeUnique fail x s).2.objs q = some cv := by
      simp only [step] at h
      split at h <;> (rename_i heq; rw [heq]; exact h)
    rcases makeUnique_note hi hm h' with ⟨h1, h2⟩ | ⟨o, rfl, h1, h2⟩
    · cases fail with
      | some e => exact h2
      | none =>
        simp only [note]
        rcases h1 with h1 | h1
        · exact absurd rfl h1
        · rcases hx : s.hs[x]? with _ | (_ | (_ | o))
          · exact h2
          · exact h2
          · exact h2
          · exact absurd hx (h1 o)
    · simp only [note, h1]; exact h2
  | managed x fail =>
    have h' : (makeUnique fail x s).2.objs q = some cv := by
      simp only [step] at h
      split at h <;> (rename_i heq; rw [heq]; exact h)
    rcases makeUnique_note hi hm h' with ⟨h1, h2⟩ | ⟨o, rfl, h1, h2⟩
    · cases fail with
      | some e => exact h2
      | none =>
        simp only [note]
        rcases h1 with h1 | h1
        · exact absurd rfl h1
        · rcases hx : s.hs[x]? with _ | (_ | (_ | o))
          · exact h2
          · exact h2
          · exact h2
          · exact absurd hx (h1 o)
    · simp only [note, h1]; exact h2

theorem run_memory (C : Classes) : ∀ (ops : List (Op V)) {s : St V} {m : Nat → Option (Nat × V)}, Inv s →
    (∀ o cv, s.objs o = some cv → m o = some cv) → ∀ {q : Nat} {cv : Nat × V}, (run C ops s).2.objs q = some cv →
    memory C ops s m q = some cv := by
  intro ops
  induction ops with
  | nil => intro s m _ hm q cv h; exact hm q cv h
  | cons o ops ih =>
    intro s m hi hm q cv h
    have h1 := step_inv (C := C) hi o
    have h2 := fun {q cv} => step_note C hi hm o (q := q) (cv := cv)
    rw [run] at h
    rw [memory]
    generalize step C o s = r at h h1 h2
    obtain ⟨r1, s'⟩ := r
    cases r1 with
    | ub u => exact h2 h
    | ok u => exact ih h1 (fun _ _ h => h2 h) h
    | exn e => exact ih h1 (fun _ _ h => h2 h) h
    | abort => exact ih h1 (fun _ _ h => h2 h) h

/-- C72: in every history, reading through a handle that is alive and not empty gives the class and value last written to its object:
when it was made, when it was made as a copy of another object, or through a reference or pointer. -/
theorem C72_last (C : Classes) (ops : List (Op V)) {x o : Nat} (h : (run C ops St.init).2.hs[x]? = some (some (some o))) :
    ∃ cv, memory C ops St.init (fun _ => none) o = some cv ∧ read x (run C ops St.init).2 = .ok cv := by
  have hi := run_inv (C := C) ops (init_inv (V := V))
  obtain ⟨cv, hc⟩ := hi.alive o (.inl ⟨x, h⟩)
  exact ⟨cv, run_memory C ops init_inv (fun _ _ h => by simp [St.init] at h) hc, read_eq h hc⟩

/-- No classes derive from others. -/
private def flat : Classes := ⟨fun _ => [], fun _ _ h => by simp at h, fun _ _ => none, fun _ _ _ h => by simp at h⟩

/-- Two handles share an object of class 3; one makes its own and changes it, and then a pointer changes it again. -/
example : (run flat [.create 3 'a', .copy 0, .ref 1 none, .writeRef 0 'b', .managed 1 none, .writePtr 0 'c'] St.init).2.hs =
      [some (some 0), some (some 2)] ∧
    (memory flat [.create 3 'a', .copy 0, .ref 1 none, .writeRef 0 'b', .managed 1 none, .writePtr 0 'c'] St.init (fun _ => none) 0,
      memory flat [.create 3 'a', .copy 0, .ref 1 none, .writeRef 0 'b', .managed 1 none, .writePtr 0 'c'] St.init (fun _ => none) 1,
      memory flat [.create 3 'a', .copy 0, .ref 1 none, .writeRef 0 'b', .managed 1 none, .writePtr 0 'c'] St.init (fun _ => none) 2) =
      (some (3, 'a'), some (3, 'b'), some (3, 'c')) := by decide +kernel

end Helper.Handle
