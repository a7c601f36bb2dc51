import Verif.Handle.Delete
/-!
# Property C122: operations of handles that throw (handle.hpp:69-82, 108-111, 119-121)

The objects, control blocks and handles of `Delete.lean`, where now making an object (`new`, `clone()`, `_copy()`, `_move()`) or
allocating its control block may throw. A `shared_ptr` that cannot allocate its control block deletes the pointer it was given;
`std::make_shared` (line 120) allocates both at once, before it makes the object. An exception is caught and the history goes on.
-/
set_option linter.unusedSectionVars false
namespace Helper.Handle.Throw
open Helper.Handle.Delete (create makeUnique Good Wrong)

/-- What goes wrong in a call. -/
inductive Fault where
  | none
  /-- making the object throws `e`; `m`: a constructor that moves from its argument has done so before it threw -/
  | object (e : Exn) (m : Bool)
  /-- there is no memory for the control block -/
  | block
deriving DecidableEq, Repr

/-- The constructors from objects. -/
inductive Ctor where
  /-- line 71 -/ | moveI
  /-- line 72 -/ | copyI
  /-- line 73 -/ | moveT
  /-- lines 74-75 -/ | copyT
deriving DecidableEq, Repr

/-- Lines 71 and 73 move from their argument. -/
def Ctor.moves : Ctor → Bool
  | .moveI | .moveT => true
  | .copyI | .copyT => false

/-- The class through which an object of class `c` will be deleted: `_move` and `_copy` return an `I*`. -/
def Ctor.deletes (i c : Nat) : Ctor → Nat
  | .moveI | .copyI => i
  | .moveT | .copyT => c

structure St where
  base : Delete.St
  /-- objects outside handles: the class, and whether they still have their value -/
  args : List (Nat × Bool)
deriving DecidableEq, Repr

inductive Op where
  /-- lines 71-75, from object `a` -/ | make (k : Ctor) (a : Nat)
  /-- line 69, with a new object of class `c` -/ | pointer (c : Nat)
  /-- lines 119-121 -/ | makeHandle (c : Nat)
  /-- lines 78, 82 -/ | copy (y : Nat)
  /-- line 79 -/ | move (y : Nat)
  /-- line 80 -/ | assign (x y : Nat)
  /-- lines 88, 92, 96, 99, 102, 106: a non-const accessor -/ | access (x : Nat)
  /-- line 68 -/ | destroy (x : Nat)
deriving DecidableEq, Repr

/-- The control block of a new object of class `c` cannot be allocated: the object is deleted as a `d`. -/
def noBlock (virt : Bool) (c d : Nat) (s : Delete.St) : Res Unit × Delete.St :=
  if virt = false ∧ d ≠ c then (.ub .nonVirtualDelete, s)
  else (.exn .badAlloc, { s with objs := s.objs ++ [(c, false)] })

/-- Lines 69-75: an object is made, then its control block. -/
def build (virt : Bool) (c d : Nat) (f : Fault) (s : Delete.St) : Res Unit × Delete.St :=
  match f with
  | .none => (.ok (), create c d s)
  | .object e _ => (.exn e, s)
  | .block => noBlock virt c d s

/-- Lines 108-111: the clone is made, then its control block, and only then is the handle changed. -/
def access (virt : Bool) (i x : Nat) (f : Fault) (s : Delete.St) : Res Unit × Delete.St :=
  match f with
  | .none => makeUnique virt i x s
  | f =>
    match s.hs[x]? with
    | some (some b) =>
      match s.blocks[b]? with
      | none => (.ub .outOfBounds, s)
      | some (o, _) =>
        match s.objs[o]? with
        | none => (.ub .outOfBounds, s)
        | some (c, alive) =>
          if alive = false then (.ub .dangling, s)
          else
            match f with
            | .object e _ => (.exn e, s)
            | _ => noBlock virt c i s
    | _ => (.ub .nullDeref, s)

/-- Whether the argument of a constructor has been moved from. -/
def taken (k : Ctor) (f : Fault) : Bool :=
  k.moves && (match f with
    | .object _ m => m
    | _ => true)

def step (virt : Bool) (i : Nat) (o : Op) (f : Fault) (s : St) : Res Unit × St :=
  match o with
  | .make k a =>
    match s.args[a]? with
    | none => (.ub .notAlive, s)
    | some (c, v) =>
      let r := build virt c (k.deletes i c) f s.base
      (r.1, ⟨r.2, s.args.set a (c, v && !taken k f)⟩)
  | .pointer c => let r := build virt c i f s.base; (r.1, { s with base := r.2 })
  | .makeHandle c =>
    match f with
    | .none => (.ok (), { s with base := create c c s.base })
    | .object e _ => (.exn e, s)
    | .block => (.exn .badAlloc, s)
  | .copy y => let r := Delete.step virt i (.copy y) s.base; (r.1, { s with base := r.2 })
  | .move y => let r := Delete.step virt i (.move y) s.base; (r.1, { s with base := r.2 })
  | .assign x y => let r := Delete.step virt i (.assign x y) s.base; (r.1, { s with base := r.2 })
  | .access x => let r := access virt i x f s.base; (r.1, { s with base := r.2 })
  | .destroy x => let r := Delete.step virt i (.destroy x) s.base; (r.1, { s with base := r.2 })

/-- A history, with the outcome of every call; exceptions are caught, undefined behaviour ends it. -/
def run (virt : Bool) (i : Nat) : List (Op × Fault) → St → List (Res Unit) × St
  | [], s => ([], s)
  | (o, f) :: os, s =>
    match step virt i o f s with
    | (.ub k, s') => ([.ub k], s')
    | (r, s') => let t := run virt i os s'; (r :: t.1, t.2)

def St.init (args : List Nat) : St := ⟨Delete.St.init, args.map fun c => (c, true)⟩

/-! ## One call that throws -/

/-- The exception a call throws for a fault. -/
def Fault.exn : Fault → Option Exn
  | .none => Option.none
  | .object e _ => some e
  | .block => some .badAlloc

/-- Nothing of `s` is changed in `t`; objects made since are deleted. -/
structure Unchanged (s t : Delete.St) : Prop where
  hs : t.hs = s.hs
  blocks : t.blocks = s.blocks
  objs : ∃ l : List (Nat × Bool), t.objs = s.objs ++ l ∧ ∀ p ∈ l, p.2 = false

theorem Unchanged.refl (s : Delete.St) : Unchanged s s := ⟨rfl, rfl, [], by simp, by simp⟩

theorem noBlock_exn {virt : Bool} {c d : Nat} {s : Delete.St} {e : Exn} (h : (noBlock virt c d s).1 = .exn e) :
    e = .badAlloc ∧ Unchanged s (noBlock virt c d s).2 := by
  unfold noBlock at h ⊢
  split at h
  · cases h
  · rename_i hn
    rw [if_neg hn]
    cases h
    exact ⟨rfl, rfl, rfl, [(c, false)], rfl, by simp⟩

theorem build_exn {virt : Bool} {c d : Nat} {f : Fault} {s : Delete.St} {e : Exn} (h : (build virt c d f s).1 = .exn e) :
    f.exn = some e ∧ Unchanged s (build virt c d f s).2 := by
  cases f with
  | none => cases h
  | object e' m => cases h; exact ⟨rfl, .refl s⟩
  | block => obtain ⟨h1, h2⟩ := noBlock_exn h; subst h1; exact ⟨rfl, h2⟩

theorem release_noExn {virt : Bool} {b : Option Nat} {s : Delete.St} (e : Exn) : (Delete.release virt b s).1 ≠ .exn e := by
  unfold Delete.release
  intro h
  repeat' (split at h)
  all_goals cases h

theorem makeUnique_noExn {virt : Bool} {i x : Nat} {s : Delete.St} (e : Exn) : (makeUnique virt i x s).1 ≠ .exn e := by
  unfold makeUnique
  intro h
  split at h
  · split at h
    · cases h
    · split at h
      · cases h
      · split at h
        · cases h
        · exact release_noExn e h
  · cases h

theorem access_exn {virt : Bool} {i x : Nat} {f : Fault} {s : Delete.St} {e : Exn} (h : (access virt i x f s).1 = .exn e) :
    f.exn = some e ∧ Unchanged s (access virt i x f s).2 := by
  cases f with
  | none => exact absurd h (makeUnique_noExn e)
  | object e' m =>
    simp only [access] at h ⊢
    split at h
    · split at h
      · cases h
      · split at h
        · cases h
        · split at h
          · cases h
          · cases h
            rename_i h1 _ _ _ h2 _ _ _ h3 h4
            simp only [if_neg h4]
            exact ⟨rfl, .refl s⟩
    · cases h
  | block =>
    simp only [access] at h ⊢
    split at h
    · split at h
      · cases h
      · split at h
        · cases h
        · split at h
          · cases h
          · rename_i h1 _ _ _ h2 _ _ _ h3 h4
            simp only [if_neg h4]
            obtain ⟨h5, h6⟩ := noBlock_exn h
            subst h5
            exact ⟨rfl, h6⟩
    · cases h

theorem plain_noExn {virt : Bool} {i : Nat} {s : Delete.St} (e : Exn) :
    (∀ y, (Delete.step virt i (.copy y) s).1 ≠ .exn e) ∧ (∀ y, (Delete.step virt i (.move y) s).1 ≠ .exn e) ∧
    (∀ x y, (Delete.step virt i (.assign x y) s).1 ≠ .exn e) ∧ (∀ x, (Delete.step virt i (.destroy x) s).1 ≠ .exn e) := by
  refine ⟨?_, ?_, ?_, ?_⟩
  · intro y h
    simp only [Delete.step] at h
    split at h <;> cases h
  · intro y h
    simp only [Delete.step] at h
    split at h <;> cases h
  · intro x y h
    simp only [Delete.step] at h
    split at h
    · exact release_noExn e h
    · cases h
  · intro x h
    simp only [Delete.step] at h
    split at h
    · cases h
    · exact release_noExn e h

/-- C122: a call that throws passes on the exception of its fault and changes no handle, no block and no object made before; what it
has made itself is deleted. Outside objects are unchanged, except for the argument of a moving constructor. -/
theorem C122_throw_partial (virt : Bool) (i : Nat) (o : Op) (f : Fault) (s : St) (e : Exn)
    (h : (step virt i o f s).1 = .exn e) :
    f.exn = some e ∧ Unchanged s.base (step virt i o f s).2.base ∧
    ∀ a : Nat, (∀ k, o = .make k a → k.moves = false) → (step virt i o f s).2.args[a]? = s.args[a]? := by
  have hp := plain_noExn (virt := virt) (i := i) (s := s.base) e
  cases o with
  | make k a =>
    simp only [step] at h ⊢
    split at h
    · cases h
    · rename_i c v ha
      obtain ⟨h1, h2⟩ := build_exn h
      refine ⟨h1, ?_, ?_⟩
      · simpa only [ha] using h2
      · intro b hb
        simp only [ha]
        by_cases hab : a = b
        · subst hab
          have hk : taken k f = false := by simp [taken, hb k rfl]
          have hl : a < s.args.length := (List.getElem?_eq_some_iff.1 ha).1
          rw [List.getElem?_set_self hl, ha, hk]
          simp
        · rw [List.getElem?_set_ne hab]
  | pointer c =>
    obtain ⟨h1, h2⟩ := build_exn h
    exact ⟨h1, h2, fun _ _ => rfl⟩
  | makeHandle c =>
    cases f with
    | none => cases h
    | object e' m => cases h; exact ⟨rfl, .refl _, fun _ _ => rfl⟩
    | block => cases h; exact ⟨rfl, .refl _, fun _ _ => rfl⟩
  | copy y => exact absurd h (hp.1 y)
  | move y => exact absurd h (hp.2.1 y)
  | assign x y => exact absurd h (hp.2.2.1 x y)
  | access x =>
    obtain ⟨h1, h2⟩ := access_exn h
    exact ⟨h1, h2, fun _ _ => rfl⟩
  | destroy x => exact absurd h (hp.2.2.2 x)

example : (step true 0 (.access 0) .block ⟨⟨[(1, true)], [(0, 0)], [some 0]⟩, []⟩) =
    (.exn .badAlloc, ⟨⟨[(1, true), (1, false)], [(0, 0)], [some 0]⟩, []⟩) := by decide +kernel

/-- C122 is false for the arguments of moving constructors: the object has been moved from before the control block could not be
allocated. -/
theorem C122_moved_refuted (i c : Nat) :
    (step true i (.make .moveT 0) .block (St.init [c])).1 = .exn .badAlloc ∧
    (St.init [c]).args[0]? = some (c, true) ∧
    (step true i (.make .moveT 0) .block (St.init [c])).2.args[0]? = some (c, false) := by
  refine ⟨?_, rfl, ?_⟩ <;> simp [step, build, noBlock, St.init, taken, Ctor.moves]

/-- C122: exactly when a call that throws has changed an outside object that had its value. -/
theorem C122_moved (virt : Bool) (i : Nat) (o : Op) (f : Fault) (s : St) (e : Exn) (h : (step virt i o f s).1 = .exn e)
    (a c : Nat) (ha : s.args[a]? = some (c, true)) :
    (step virt i o f s).2.args[a]? ≠ s.args[a]? ↔
      (o = .make .moveI a ∨ o = .make .moveT a) ∧ (f = .block ∨ ∃ e', f = .object e' true) := by
  constructor
  · intro hne
    have h1 : ∃ k, o = .make k a ∧ k.moves = true := by
      apply Classical.byContradiction
      intro hk
      refine hne ((C122_throw_partial virt i o f s e h).2.2 a ?_)
      intro k ho
      cases hm : k.moves with
      | false => rfl
      | true => exact absurd ⟨k, ho, hm⟩ hk
    obtain ⟨k, rfl, hk⟩ := h1
    refine ⟨?_, ?_⟩
    · cases k <;> simp_all [Ctor.moves]
    · cases f with
      | none =>
        simp only [step, ha, build] at h
        cases h
      | block => exact .inl rfl
      | object e' m =>
        cases m with
        | true => exact .inr ⟨e', rfl⟩
        | false =>
          refine absurd ?_ hne
          have hl : a < s.args.length := (List.getElem?_eq_some_iff.1 ha).1
          simp [step, ha, taken, List.getElem?_set_self hl]
  · rintro ⟨ho, hf⟩
    have hl : a < s.args.length := (List.getElem?_eq_some_iff.1 ha).1
    have ht : ∀ k : Ctor, k.moves = true → taken k f = true := by
      intro k hk
      rcases hf with rfl | ⟨e', rfl⟩ <;> simp [taken, hk]
    rcases ho with rfl | rfl
    · simp [step, ha, ht .moveI rfl, List.getElem?_set_self hl]
    · simp [step, ha, ht .moveT rfl, List.getElem?_set_self hl]

/-! ## Histories -/

theorem dead_good {virt : Bool} {s : Delete.St} (h : Good virt s) (c : Nat) : Good virt { s with objs := s.objs ++ [(c, false)] } := by
  refine ⟨h.hs, ?_, h.inj, ?_, ?_, ?_⟩
  · intro b o d hb
    have := h.obj b o d hb
    simp only [List.length_append, List.length_singleton]
    omega
  · intro o c' ho
    rcases Delete.snoc_getElem? _ _ _ _ ho with ho | ⟨_, ho⟩
    · exact h.onto o c' ho
    · cases ho
  · intro b o d c' l hb ho
    rw [List.getElem?_append_left (h.obj b o d hb)] at ho
    exact h.alive b o d c' l hb ho
  · intro b o d c' l hb ho
    rw [List.getElem?_append_left (h.obj b o d hb)] at ho
    exact h.right b o d c' l hb ho

/-- What may be done without a virtual destructor: objects are given to handles as objects of their own class, and handles are only read. -/
def Allowed (virt : Bool) (i : Nat) (args : List (Nat × Bool)) : Op → Prop
  | .make k a => virt = true ∨ ∀ (c : Nat) (v : Bool), args[a]? = some (c, v) → k.deletes i c = c
  | .pointer c => virt = true ∨ c = i
  | .access _ => virt = true
  | _ => True

theorem noBlock_good {virt : Bool} {c d : Nat} {s : Delete.St} (h : Good virt s) (hr : virt = true ∨ d = c) :
    (noBlock virt c d s).1 = .exn .badAlloc ∧ Good virt (noBlock virt c d s).2 := by
  have hn : ¬ (virt = false ∧ d ≠ c) := by
    rintro ⟨h1, h2⟩
    rcases hr with hr | hr
    · rw [h1] at hr; cases hr
    · exact h2 hr
  simp only [noBlock, if_neg hn]
  exact ⟨trivial, dead_good h c⟩

/-- The outcomes of calls without wrong deletions: success, the exception of the fault, use of a handle that holds nothing or does not exist. -/
def Fair (f : Fault) (r : Res Unit) : Prop :=
  r = .ok () ∨ (∃ e, f.exn = some e ∧ r = .exn e) ∨ r = .ub .nullDeref ∨ r = .ub .notAlive

theorem build_good {virt : Bool} {c d : Nat} {s : Delete.St} (f : Fault) (h : Good virt s) (hr : virt = true ∨ d = c) :
    Fair f (build virt c d f s).1 ∧ Good virt (build virt c d f s).2 := by
  cases f with
  | none => exact ⟨.inl rfl, Delete.create_good h c d hr⟩
  | object e m => exact ⟨.inr (.inl ⟨e, rfl, rfl⟩), h⟩
  | block =>
    obtain ⟨h1, h2⟩ := noBlock_good (d := d) h hr
    exact ⟨.inr (.inl ⟨_, rfl, h1⟩), h2⟩

theorem access_good {i : Nat} {s : Delete.St} (f : Fault) (h : Good true s) (x : Nat) :
    Fair f (access true i x f s).1 ∧ Good true (access true i x f s).2 := by
  cases hf : f with
  | none =>
    rcases Delete.makeUnique_good (i := i) h x with ⟨s', h1, h2⟩ | h1
    · simp only [access, h1]; exact ⟨.inl rfl, h2⟩
    · simp only [access, h1]; exact ⟨.inr (.inr (.inl rfl)), h⟩
  | object e m =>
    cases hx : s.hs[x]? with
    | none => simp only [access, hx]; exact ⟨.inr (.inr (.inl rfl)), h⟩
    | some p =>
      cases p with
      | none => simp only [access, hx]; exact ⟨.inr (.inr (.inl rfl)), h⟩
      | some b =>
        obtain ⟨⟨o, d⟩, hb⟩ : ∃ od, s.blocks[b]? = some od := ⟨_, List.getElem?_eq_getElem (h.hs x b hx)⟩
        obtain ⟨⟨c, l⟩, ho⟩ : ∃ cl, s.objs[o]? = some cl := ⟨_, List.getElem?_eq_getElem (h.obj b o d hb)⟩
        have hl : l = true := (h.alive b o d c l hb ho).2 (List.mem_of_getElem? hx)
        subst hl
        simp only [access, hx, hb, ho]
        exact ⟨.inr (.inl ⟨e, rfl, rfl⟩), h⟩
  | block =>
    cases hx : s.hs[x]? with
    | none => simp only [access, hx]; exact ⟨.inr (.inr (.inl rfl)), h⟩
    | some p =>
      cases p with
      | none => simp only [access, hx]; exact ⟨.inr (.inr (.inl rfl)), h⟩
      | some b =>
        obtain ⟨⟨o, d⟩, hb⟩ : ∃ od, s.blocks[b]? = some od := ⟨_, List.getElem?_eq_getElem (h.hs x b hx)⟩
        obtain ⟨⟨c, l⟩, ho⟩ : ∃ cl, s.objs[o]? = some cl := ⟨_, List.getElem?_eq_getElem (h.obj b o d hb)⟩
        have hl : l = true := (h.alive b o d c l hb ho).2 (List.mem_of_getElem? hx)
        subst hl
        simp only [access, hx, hb, ho]
        obtain ⟨h1, h2⟩ := noBlock_good (c := c) (d := i) h (.inl rfl)
        exact ⟨.inr (.inl ⟨_, rfl, h1⟩), h2⟩

theorem plain_good {virt : Bool} {i : Nat} {s : Delete.St} (f : Fault) (h : Good virt s) (op : Delete.Op) (ha : Delete.Allowed virt i op) :
    Fair f (Delete.step virt i op s).1 ∧ Good virt (Delete.step virt i op s).2 := by
  rcases Delete.step_good h op ha with ⟨s', h1, h2⟩ | h1 | h1
  · rw [h1]; exact ⟨.inl rfl, h2⟩
  · rw [h1]; exact ⟨.inr (.inr (.inl rfl)), h⟩
  · rw [h1]; exact ⟨.inr (.inr (.inr rfl)), h⟩

theorem step_good {virt : Bool} {i : Nat} {s : St} (h : Good virt s.base) (o : Op) (f : Fault) (ha : Allowed virt i s.args o) :
    Fair f (step virt i o f s).1 ∧ Good virt (step virt i o f s).2.base := by
  cases o with
  | make k a =>
    simp only [step]
    cases he : s.args[a]? with
    | none => exact ⟨.inr (.inr (.inr rfl)), h⟩
    | some cv =>
      exact build_good f h (ha.imp id fun g => g cv.1 cv.2 he)
  | pointer c => exact build_good f h (ha.imp id Eq.symm)
  | makeHandle c =>
    cases f with
    | none => exact ⟨.inl rfl, Delete.create_good h c c (.inr rfl)⟩
    | object e m => exact ⟨.inr (.inl ⟨e, rfl, rfl⟩), h⟩
    | block => exact ⟨.inr (.inl ⟨_, rfl, rfl⟩), h⟩
  | copy y => exact plain_good f h (.copy y) trivial
  | move y => exact plain_good f h (.move y) trivial
  | assign x y => exact plain_good f h (.assign x y) trivial
  | access x =>
    have hv : virt = true := ha
    subst hv
    exact access_good f h x
  | destroy x => exact plain_good f h (.destroy x) trivial

theorem run_good {i : Nat} : ∀ (ops : List (Op × Fault)) {s : St}, Good true s.base →
    (∀ r ∈ (run true i ops s).1, ∃ p ∈ ops, Fair p.2 r) ∧ Good true (run true i ops s).2.base := by
  intro ops
  induction ops with
  | nil => intro s h; exact ⟨by simp [run], h⟩
  | cons p os ih =>
    obtain ⟨o, f⟩ := p
    intro s h
    have ha : Allowed true i s.args o := by cases o <;> simp [Allowed]
    obtain ⟨h1, h2⟩ := step_good (i := i) h o f ha
    have key : ∀ r s', step true i o f s = (r, s') → (∀ k, r ≠ .ub k) →
        (∀ q ∈ (run true i ((o, f) :: os) s).1, ∃ p ∈ (o, f) :: os, Fair p.2 q) ∧ Good true (run true i ((o, f) :: os) s).2.base := by
      intro r s' hs hr
      rw [hs] at h1 h2
      obtain ⟨h3, h4⟩ := ih (s := s') h2
      have e : run true i ((o, f) :: os) s = (r :: (run true i os s').1, (run true i os s').2) := by
        simp only [run, hs]
      rw [e]
      refine ⟨?_, h4⟩
      intro q hq
      rcases List.mem_cons.1 hq with rfl | hq
      · exact ⟨(o, f), by simp, h1⟩
      · obtain ⟨p, hp, hf⟩ := h3 q hq
        exact ⟨p, List.mem_cons_of_mem _ hp, hf⟩
    cases hs : step true i o f s with
    | mk r s' =>
      cases r with
      | ok u => exact key _ s' hs (by simp)
      | exn e => exact key _ s' hs (by simp)
      | abort => exact key _ s' hs (by simp)
      | ub k =>
        rw [hs] at h1 h2
        simp only [run, hs]
        exact ⟨fun q hq => ⟨(o, f), by simp, by rw [List.mem_singleton.1 hq]; exact h1⟩, h2⟩

/-- C122: with a virtual destructor, whatever throws in a history, nothing is deleted wrongly, and an object is alive iff a handle holds it. -/
theorem C122_history_partial (i : Nat) (args : List Nat) (ops : List (Op × Fault)) :
    (∀ r ∈ (run true i ops (St.init args)).1, ¬ Wrong r) ∧
    ∀ (o c : Nat) (l : Bool), (run true i ops (St.init args)).2.base.objs[o]? = some (c, l) →
      (l = true ↔ ∃ (x b d : Nat), (run true i ops (St.init args)).2.base.hs[x]? = some (some b) ∧
        (run true i ops (St.init args)).2.base.blocks[b]? = some (o, d)) := by
  obtain ⟨h1, h2⟩ := run_good (i := i) ops (s := St.init args) (Delete.init_good true)
  refine ⟨?_, fun o c l ho => h2.owned ho⟩
  intro r hr hw
  obtain ⟨p, _, hf⟩ := h1 r hr
  rcases hf with hf | ⟨e, _, hf⟩ | hf | hf <;> rw [hf] at hw <;> rcases hw with hw | hw | hw <;> cases hw

/-- C122: when no handle holds anything, no object is left. -/
theorem C122_noLeak (i : Nat) (args : List Nat) (ops : List (Op × Fault))
    (h : ∀ p ∈ (run true i ops (St.init args)).2.base.hs, p = none) :
    ∀ p ∈ (run true i ops (St.init args)).2.base.objs, p.2 = false := by
  intro p hp
  obtain ⟨o, ho⟩ := List.getElem?_of_mem hp
  cases hl : p.2 with
  | false => rfl
  | true =>
    obtain ⟨x, b, d, hx, _⟩ := ((C122_history_partial i args ops).2 o p.1 p.2 ho).1 hl
    cases h _ (List.mem_of_getElem? hx)

/-- Every fault once; two objects are left deleted and the handles empty. -/
example : run true 0 [(.make .copyT 0, .none), (.access 0, .object (.user 7) false), (.access 0, .block), (.make .moveI 0, .block),
      (.makeHandle 2, .block), (.access 0, .none), (.destroy 0, .none)] (St.init [1]) =
    ([.ok (), .exn (.user 7), .exn .badAlloc, .exn .badAlloc, .exn .badAlloc, .ok (), .ok ()],
      ⟨⟨[(1, false), (1, false), (1, false), (1, false)], [(0, 1), (3, 0)], [none]⟩, [(1, false)]⟩) := by decide +kernel

/-- C122 is false without a virtual destructor: a clone whose control block cannot be allocated is deleted through a pointer to the
interface, as is the object made by `_copy`. Making the handle from the object's own class only throws. -/
theorem C122_nonvirtual_refuted :
    (run false 0 [(.makeHandle 1, .none), (.access 0, .block)] (St.init [])).1 = [.ok (), .ub .nonVirtualDelete] ∧
    (run false 0 [(.make .copyI 0, .block)] (St.init [1])).1 = [.ub .nonVirtualDelete] ∧
    (run false 0 [(.make .copyT 0, .block)] (St.init [1])).1 = [.exn .badAlloc] := by
  decide +kernel

/-- The classes of outside objects never change. -/
theorem step_class {virt : Bool} {i : Nat} (o : Op) (f : Fault) (s : St) (a c : Nat) (v : Bool)
    (h : (step virt i o f s).2.args[a]? = some (c, v)) : ∃ v', s.args[a]? = some (c, v') := by
  cases o with
  | make k b =>
    simp only [step] at h
    split at h
    · exact ⟨v, h⟩
    · rename_i c' v' hb
      rcases Delete.set_getElem? h with ⟨_, h⟩ | ⟨e, _, h⟩
      · exact ⟨v, h⟩
      · cases h
        exact ⟨v', by rw [e]; exact hb⟩
  | makeHandle c' => cases f <;> exact ⟨v, h⟩
  | _ => exact ⟨v, h⟩

theorem run_const {virt : Bool} {i : Nat} (cls : List (Nat × Bool)) : ∀ (ops : List (Op × Fault)) {s : St}, Good virt s.base →
    (∀ (a c : Nat) (v : Bool), s.args[a]? = some (c, v) → ∃ v', cls[a]? = some (c, v')) →
    (∀ p ∈ ops, Allowed virt i cls p.1) →
    ∀ r ∈ (run virt i ops s).1, ¬ Wrong r := by
  intro ops
  induction ops with
  | nil => intro s _ _ _ r hr; simp [run] at hr
  | cons p os ih =>
    obtain ⟨o, f⟩ := p
    intro s h hc hall
    have ha : Allowed virt i s.args o := by
      have := hall (o, f) (by simp)
      cases o with
      | make k a =>
        refine Or.imp id ?_ this
        intro g c v hv
        obtain ⟨v', hv'⟩ := hc a c v hv
        exact g c v' hv'
      | _ => exact this
    obtain ⟨h1, h2⟩ := step_good (i := i) h o f ha
    have hnw : ¬ Wrong (step virt i o f s).1 := by
      intro hw
      rcases h1 with hf | ⟨e, _, hf⟩ | hf | hf <;> rw [hf] at hw <;> rcases hw with hw | hw | hw <;> cases hw
    have hc' : ∀ (a c : Nat) (v : Bool), (step virt i o f s).2.args[a]? = some (c, v) → ∃ v', cls[a]? = some (c, v') := by
      intro a c v hv
      obtain ⟨v', hv'⟩ := step_class o f s a c v hv
      exact hc a c v' hv'
    have hi := ih (s := (step virt i o f s).2) h2 hc' fun p hp => hall p (by simp [hp])
    cases hs : step virt i o f s with
    | mk r s' =>
      rw [hs] at hnw hi
      cases r with
      | ub k =>
        simp only [run, hs]
        intro q hq
        rw [List.mem_singleton.1 hq]; exact hnw
      | _ =>
        simp only [run, hs]
        intro q hq
        rcases List.mem_cons.1 hq with rfl | hq
        · exact hnw
        · exact hi q hq

/-- C122: without a virtual destructor nothing is deleted wrongly, whatever throws, if handles are made from objects by their own class and only
read. -/
theorem C122_const_partial (virt : Bool) (i : Nat) (args : List Nat) (ops : List (Op × Fault))
    (hm : ∀ (k : Ctor) (a : Nat) (f : Fault), (Op.make k a, f) ∈ ops → k = .moveT ∨ k = .copyT ∨ args[a]? = some i)
    (hp : ∀ (c : Nat) (f : Fault), (Op.pointer c, f) ∈ ops → c = i)
    (ha : ∀ (x : Nat) (f : Fault), (Op.access x, f) ∉ ops) :
    ∀ r ∈ (run virt i ops (St.init args)).1, ¬ Wrong r := by
  refine run_const (args.map fun c => (c, true)) ops (Delete.init_good virt) ?_ ?_
  · intro a c v h
    exact ⟨v, h⟩
  · rintro ⟨o, f⟩ hop
    cases o with
    | make k a =>
      right
      intro c v hc
      rcases hm k a f hop with rfl | rfl | h
      · rfl
      · rfl
      · rw [List.getElem?_map, h] at hc
        simp at hc
        cases k <;> simp [Ctor.deletes, hc.1]
    | pointer c => exact .inr (hp c f hop)
    | access x => exact absurd hop (ha x f)
    | _ => trivial

/-- C122: without faults the calls are those of C111. -/
theorem C122_faultless (virt : Bool) (i : Nat) (s : St) :
    (∀ (a c : Nat) (v : Bool) (k : Ctor), s.args[a]? = some (c, v) →
      ((step virt i (.make k a) .none s).1, (step virt i (.make k a) .none s).2.base) =
        Delete.step virt i (if k = .moveI ∨ k = .copyI then .newI c else .newT c) s.base) ∧
    (∀ c, ((step virt i (.pointer c) .none s).1, (step virt i (.pointer c) .none s).2.base) = Delete.step virt i (.newI c) s.base) ∧
    (∀ c, ((step virt i (.makeHandle c) .none s).1, (step virt i (.makeHandle c) .none s).2.base) = Delete.step virt i (.newT c) s.base) ∧
    (∀ x, ((step virt i (.access x) .none s).1, (step virt i (.access x) .none s).2.base) = Delete.step virt i (.access x) s.base) := by
  refine ⟨?_, fun _ => rfl, fun _ => rfl, fun _ => rfl⟩
  intro a c v k h
  cases k <;> simp [step, h, build, Delete.step, Ctor.deletes]

end Helper.Handle.Throw
