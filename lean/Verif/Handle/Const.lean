import Verif.Basic
set_option linter.unusedSectionVars false
/-!
# Property C125: handles on const objects (handle.hpp:63-171)

Programs use handles `Handle<X>` and `Handle<const X>` on the same classes. Which overload of `_make_unique` and of
`dynamic_handle_extract` is called is found by overload resolution. Left out: deletion of objects (C72, C111), null pointers, calls that
throw (C122), and the classes of the objects: casts succeed (C57).
-/
namespace Helper.Handle.Const

/-! ## Overload resolution -/

/-- `X` or `const X`. -/
inductive Cv where
  | plain | const
deriving DecidableEq, Repr

/-- A parameter `P<I>&`, `P<const I>&`, `const P<I>&` or `const P<const I>&` of a function template with parameter `I`, where `P` is `Handle`
or `shared_ptr`. -/
structure Param where
  /-- `const P<…>&` -/ constRef : Bool
  /-- `P<const I>` -/ constArg : Bool
deriving DecidableEq, Repr

/-- An argument: a variable of type `P<X>` or `P<const X>`, const or not. -/
structure Arg where
  inner : Cv
  constVar : Bool
deriving DecidableEq, Repr

/-- What `I` is deduced to be, if the parameter accepts the argument ([temp.deduct.call]). -/
def Param.deduce (p : Param) (a : Arg) : Option Cv :=
  if a.constVar && !p.constRef then none
  else
    match p.constArg, a.inner with
    | true, .const => some .plain
    | true, .plain => none
    | false, i => some i

/-- `p` is better than `q` for the argument: it binds without adding const ([over.ics.rank]), or is more specialised
([temp.func.order]). -/
def Param.better (a : Arg) (p q : Param) : Bool :=
  if p.constRef = q.constRef then p.constArg && !q.constArg
  else !a.constVar && !p.constRef && q.constRef

/-- The viable overload that is better than all others. -/
def resolve (ps : List Param) (a : Arg) : Option (Nat × Cv) :=
  let viable := (List.range ps.length).filterMap fun i => (ps[i]?).bind fun p => (p.deduce a).map fun c => (i, p, c)
  (viable.find? fun x => viable.all fun y => x.1 == y.1 || x.2.1.better a y.2.1).map fun x => (x.1, x.2.2)

/-- Lines 108-110: `_make_unique(shared_ptr<II>&)`, which clones, and `_make_unique(shared_ptr<const II>&)`, which does nothing. -/
def makeUniques : List Param := [⟨false, false⟩, ⟨false, true⟩]

/-- Lines 145, 156, 160: the overloads of `dynamic_handle_extract`. -/
def extracts : List Param := [⟨true, true⟩, ⟨true, false⟩, ⟨false, false⟩]

/-- Lines 145, 156, 160: whether the reference returned is non-const. -/
def extractMutable : Nat → Bool
  | 2 => true
  | _ => false

/-! ## Programs -/

/-- Objects have values; a variable is a handle on an object; references remember whether they are non-const. -/
structure St (V : Type) where
  objs : List V
  hs : List (Cv × Nat)
  refs : List (Nat × Bool)
deriving DecidableEq, Repr

variable {V : Type}

def St.init : St V := ⟨[], [], []⟩

inductive Op (V : Type) where
  /-- line 69 -/ | create (c : Cv) (v : V)
  /-- lines 78-79 -/ | copy (y : Nat)
  /-- line 80, for handles of the same type -/ | assign (x y : Nat)
  /-- line 82 `Handle<const X>(h)`; also accepts a `Handle<const X>` -/ | convert (y : Nat)
  /-- lines 86-102: an accessor, of a variable that is const or not -/ | access (x : Nat) (constVar : Bool)
  /-- lines 145-169 `dynamic_handle_extract` -/ | extract (x : Nat) (constVar : Bool)
  /-- the client assigns through a reference, which must be non-const to compile -/ | write (r : Nat) (v : V)
deriving DecidableEq, Repr

/-- One operation; `none` if it does not compile or names something that does not exist. -/
def step : Op V → St V → Option (St V)
  | .create c v, s => some { s with objs := s.objs ++ [v], hs := s.hs ++ [(c, s.objs.length)] }
  | .copy y, s => (s.hs[y]?).map fun h => { s with hs := s.hs ++ [h] }
  | .assign x y, s =>
    match s.hs[x]?, s.hs[y]? with
    | some h, some k => if h.1 = k.1 then some { s with hs := s.hs.set x k } else none
    | _, _ => none
  | .convert y, s => (s.hs[y]?).map fun h => { s with hs := s.hs ++ [(.const, h.2)] }
  | .access x constVar, s =>
    match s.hs[x]? with
    | none => none
    | some (c, o) =>
      if constVar then some { s with refs := s.refs ++ [(o, false)] }
      else
        match resolve makeUniques ⟨c, false⟩ with
        | some (0, _) =>
          match s.objs[o]? with
          | some v => some ⟨s.objs ++ [v], s.hs.set x (c, s.objs.length), s.refs ++ [(s.objs.length, decide (c = .plain))]⟩
          | none => none
        | some _ => some { s with refs := s.refs ++ [(o, decide (c = .plain))] }
        | none => none
  | .extract x constVar, s =>
    match s.hs[x]? with
    | none => none
    | some (c, o) => (resolve extracts ⟨c, constVar⟩).map fun k => { s with refs := s.refs ++ [(o, extractMutable k.1)] }
  | .write r v, s =>
    match s.refs[r]? with
    | some (o, true) => if o < s.objs.length then some { s with objs := s.objs.set o v } else none
    | _ => none

def run : List (Op V) → St V → Option (St V)
  | [], s => some s
  | o :: os, s => (step o s).bind (run os)

/-- The value seen through a handle. -/
def read (x : Nat) (s : St V) : Option V := (s.hs[x]?).bind fun h => s.objs[h.2]?

/-! ## Property C125 -/

/-- The overloads that are called: accessors of handles on const objects do not clone, and `dynamic_handle_extract` returns a non-const
reference exactly for variables that are not const, whatever the objects are. -/
theorem C125_overloads :
    resolve makeUniques ⟨.plain, false⟩ = some (0, .plain) ∧ resolve makeUniques ⟨.const, false⟩ = some (1, .plain) ∧
    (∀ c k, ∃ i d, resolve extracts ⟨c, k⟩ = some (i, d) ∧ (extractMutable i = true ↔ k = false)) := by
  refine ⟨by decide, by decide, fun c k => ?_⟩
  cases c <;> cases k
  · exact ⟨2, .plain, by decide, by decide⟩
  · exact ⟨1, .plain, by decide, by decide⟩
  · exact ⟨2, .const, by decide, by decide⟩
  · exact ⟨0, .plain, by decide, by decide⟩

/-- Operations other than writing leave the objects as they are. -/
theorem step_objs {o : Op V} {s s' : St V} (h : step o s = some s') (hw : ∀ r v, o ≠ .write r v) : ∃ l, s'.objs = s.objs ++ l := by
  cases o with
  | create c v => simp only [step, Option.some.injEq] at h; subst h; exact ⟨[v], rfl⟩
  | copy y => simp only [step, Option.map_eq_some_iff] at h; obtain ⟨k, -, rfl⟩ := h; exact ⟨[], by simp⟩
  | assign x y =>
    simp only [step] at h
    split at h
    · split at h
      · cases h; exact ⟨[], by simp⟩
      · cases h
    · cases h
  | convert y => simp only [step, Option.map_eq_some_iff] at h; obtain ⟨k, -, rfl⟩ := h; exact ⟨[], by simp⟩
  | access x k =>
    simp only [step] at h
    split at h
    · cases h
    · split at h
      · cases h; exact ⟨[], by simp⟩
      · split at h
        · split at h
          · rename_i v _; cases h; exact ⟨[v], rfl⟩
          · cases h
        · cases h; exact ⟨[], by simp⟩
        · cases h
  | extract x k =>
    simp only [step] at h
    split at h
    · cases h
    · simp only [Option.map_eq_some_iff] at h; obtain ⟨k, -, rfl⟩ := h; exact ⟨[], by simp⟩
  | write r v => exact absurd rfl (hw r v)

/-- The operation gives `x` another object. -/
def Op.moves (x : Nat) : Op V → Bool
  | .assign y _ => y == x
  | _ => false

theorem step_const {o : Op V} {s s' : St V} (h : step o s = some s') {x i : Nat} (hx : s.hs[x]? = some (.const, i))
    (hm : o.moves x = false) : s'.hs[x]? = some (.const, i) := by
  have hl := (List.getElem?_eq_some_iff.1 hx).1
  cases o with
  | create c v => simp only [step, Option.some.injEq] at h; subst h; simp [List.getElem?_append_left hl, hx]
  | copy y =>
    simp only [step, Option.map_eq_some_iff] at h; obtain ⟨k, -, rfl⟩ := h; simp [List.getElem?_append_left hl, hx]
  | assign y z =>
    simp only [step] at h
    simp only [Op.moves, beq_eq_false_iff_ne, ne_eq] at hm
    split at h
    · split at h
      · cases h; simp [List.getElem?_set_ne hm, hx]
      · cases h
    · cases h
  | convert y =>
    simp only [step, Option.map_eq_some_iff] at h; obtain ⟨k, -, rfl⟩ := h; simp [List.getElem?_append_left hl, hx]
  | access y k =>
    simp only [step] at h
    split at h
    · cases h
    · rename_i c o hy
      split at h
      · cases h; exact hx
      · have h1 := C125_overloads.1
        have h2 := C125_overloads.2.1
        cases c with
        | plain =>
          rw [h1] at h
          simp only at h
          split at h
          · cases h
            have : y ≠ x := by rintro rfl; rw [hx] at hy; cases hy
            simp [List.getElem?_set_ne this, hx]
          · cases h
        | const => rw [h2] at h; cases h; exact hx
  | extract y k =>
    simp only [step] at h
    split at h
    · cases h
    · simp only [Option.map_eq_some_iff] at h; obtain ⟨k, -, rfl⟩ := h; exact hx
  | write r v =>
    simp only [step] at h
    split at h
    · split at h
      · cases h; exact hx
      · cases h
    · cases h

/-- Unless the client writes through a reference, the value behind a `Handle<const X>` does not change, whatever is done to other handles. -/
theorem C125_const_partial (os : List (Op V)) : ∀ (s s' : St V), run os s = some s' → (∀ r v, .write r v ∉ os) →
    ∀ (x : Nat) (v : V), (∀ o ∈ os, o.moves x = false) → (∃ i, s.hs[x]? = some (.const, i) ∧ s.objs[i]? = some v) →
    read x s' = some v := by
  induction os with
  | nil =>
    intro s s' h _ x v _ ⟨i, h1, h2⟩
    simp only [run, Option.some.injEq] at h
    subst h
    simp [read, h1, h2]
  | cons o os ih =>
    intro s s' h hw x v hm ⟨i, h1, h2⟩
    simp only [run, Option.bind_eq_some_iff] at h
    obtain ⟨s1, h3, h4⟩ := h
    refine ih s1 s' h4 (fun r v hr => hw r v (by simp [hr])) x v (fun o ho => hm o (by simp [ho])) ⟨i, ?_, ?_⟩
    · exact step_const h3 h1 (hm o (by simp))
    · obtain ⟨l, hl⟩ := step_objs h3 (fun r v e => hw r v (by simp [e]))
      rw [hl, List.getElem?_append_left (List.getElem?_eq_some_iff.1 h2).1, h2]

/-- Assigning through a reference that an accessor of a `Handle<X>` has just returned changes no other handle either. -/
theorem C125_assign (s s1 s2 : St V) (y : Nat) (v w : V) (h1 : step (.access y false) s = some s1)
    (h2 : step (.write s.refs.length w) s1 = some s2) (x i : Nat) (hx : s.hs[x]? = some (.const, i)) (hv : s.objs[i]? = some v) :
    read x s2 = some v := by
  have hx1 := step_const h1 hx rfl
  simp only [step] at h1
  split at h1
  · cases h1
  · rename_i c o hy
    cases c with
    | const =>
      rw [C125_overloads.2.1] at h1
      cases h1
      simp [step] at h2
    | plain =>
      rw [C125_overloads.1] at h1
      simp only [Bool.false_eq_true, if_false] at h1
      split at h1
      · cases h1
        simp only [step, List.getElem?_append_right (Nat.le_refl _), Nat.sub_self, List.getElem?_cons_zero, decide_true] at h2
        simp only [List.length_append, List.length_singleton, Nat.lt_succ_self, if_true, Option.some.injEq] at h2
        subst h2
        have hi := (List.getElem?_eq_some_iff.1 hv).1
        simp only [read, hx1, Option.bind_some]
        rw [List.getElem?_set_ne (by omega), List.getElem?_append_left hi, hv]
      · cases h1

/-- `dynamic_handle_extract` of a variable `Handle<const X>` gives a non-const reference to the object, which all its handles share. -/
theorem C125_extract_refuted (s : St V) (x i : Nat) (v w : V) (hx : s.hs[x]? = some (.const, i)) (hv : s.objs[i]? = some v) :
    ∃ s1 s2, step (.extract x false) s = some s1 ∧ step (.write s.refs.length w) s1 = some s2 ∧
      ∀ (y : Nat) (c : Cv), s.hs[y]? = some (c, i) → read y s2 = some w := by
  have hi := (List.getElem?_eq_some_iff.1 hv).1
  have hr : resolve extracts ⟨.const, false⟩ = some (2, .const) := by decide
  refine ⟨{ s with refs := s.refs ++ [(i, true)] }, ⟨s.objs.set i w, s.hs, s.refs ++ [(i, true)]⟩, ?_, ?_, ?_⟩
  · simp [step, hx, hr, extractMutable]
  · simp [step, hi]
  · intro y c hy
    simp [read, hy, List.getElem?_set_self hi]

/-- Nor does it help that a handle is a `Handle<const X>` if it was made from a `Handle<X>` to which there is a reference. -/
theorem C125_reference_refuted (v w : V) : ∃ s : St V,
    run [.create .plain v, .access 0 false, .convert 0, .write 0 w] St.init = some s ∧ s.hs[1]? = some (.const, 1) ∧
    read 1 s = some w := by
  exact ⟨⟨[v, w], [(.plain, 1), (.const, 1)], [(1, true)]⟩, rfl, rfl, rfl⟩

/-- A variable that is itself const is safe: its references are const. -/
theorem C125_constVar (s s' : St V) (x : Nat) (h : step (.extract x true) s = some s' ∨ step (.access x true) s = some s') (w : V) :
    s'.objs = s.objs ∧ s'.hs = s.hs ∧ step (.write s.refs.length w) s' = none := by
  rcases h with h | h
  · simp only [step] at h
    split at h
    · cases h
    · rename_i c o hx
      obtain ⟨i, d, h1, h2⟩ := C125_overloads.2.2 c true
      rw [h1] at h
      simp only [Option.map_some, Option.some.injEq] at h
      subst h
      have : extractMutable i = false := by cases e : extractMutable i with
        | false => rfl
        | true => cases h2.1 e
      simp [step, this]
  · simp only [step] at h
    split at h
    · cases h
    · cases h
      simp [step]

/-! ## Examples -/

/-- A constant, its copy, and a plain handle that shares the object with a constant and is then changed. -/
example : run [.create .const 5, .copy 0, .create .plain 7, .convert 2, .access 2 false, .write 0 9] St.init =
    some ⟨[5, 7, 9], [(.const, 0), (.const, 0), (.plain, 2), (.const, 1)], [(2, true)]⟩ := by decide +kernel

/-- `Handle<const X> a(…); Handle<const X> const b=a; dynamic_handle_extract<X>(a)=6;` changes `b`. -/
example : (run [.create .const 5, .copy 0, .extract 0 false, .write 0 6] St.init).map (read 1) = some (some 6) ∧
    (run [.create .const 5, .copy 0, .extract 0 true, .write 0 6] St.init).map (read 1) = none := by decide +kernel

end Helper.Handle.Const
