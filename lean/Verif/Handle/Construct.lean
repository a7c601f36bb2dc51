import Verif.Handle.Refs
import Verif.Overload.Model
/-!
# Property C110: handles constructed from objects (handle.hpp:71-75, 119-121)

Which constructor of `Handle<I>` runs is decided by overload resolution on the static type of the argument, its constness and
whether it is an lvalue. The model covers arguments of class type (no conversions by user code, no `volatile`), and `I` not const.
-/
set_option linter.unusedSectionVars false
namespace Helper.Handle
open Helper.Overload (Cand resolve)

/-- What overload resolution and the constructors use of the classes of a program, besides their bases. -/
structure Program extends Classes where
  /-- `std::is_copy_constructible`: not abstract, and with a usable copy constructor -/
  copyable : Nat → Bool
  /-- `new T(std::move(t))` compiles: not abstract, and constructible from a non-const rvalue -/
  movable : Nat → Bool

/-- The object an argument refers to: its dynamic class, and the data members that each of its classes contributes. -/
structure Object (V : Type) where
  cls : Nat
  data : Nat → Option V

/-- An argument: its static class, constness and value category. -/
structure Arg where
  cls : Nat
  isConst : Bool
  lvalue : Bool
deriving DecidableEq, Repr

/-- The constructors that an argument of class type may select. -/
inductive Ctor where
  /-- line 71 -/ | moveI
  /-- line 72 -/ | copyI
  /-- line 73 -/ | moveT
  /-- lines 74-75 -/ | copyT
deriving DecidableEq, Repr

/-- Rank of binding a reference parameter to the argument, the smaller the better ([over.ics.rank]): identity before conversion to
a base; then an rvalue reference before an lvalue reference (for rvalues); then the less const-qualified. -/
def bindRank (toBase rvalueRef const : Bool) : Nat :=
  (if toBase then 4 else 0) + (if rvalueRef then 0 else 2) + (if const then 1 else 0)

variable {V : Type}

/-- The viable constructors of `Handle<i>`. Line 71 takes only non-const rvalues. In line 73 `T` is deduced as an lvalue reference for
an lvalue, which is not `DerivedFrom<i>`; for a const rvalue it is deduced const. In line 74 `T` is the static class. -/
def candidates (P : Program) (i : Nat) (a : Arg) : List (Cand Ctor) :=
  if P.cast a.cls i then
    (if !a.lvalue && !a.isConst then [⟨.moveI, [bindRank (a.cls != i) true false], false, 0⟩] else []) ++
    [⟨.copyI, [bindRank (a.cls != i) false true], false, 0⟩] ++
    (if !a.lvalue then [⟨.moveT, [bindRank false true a.isConst], true, 0⟩] else []) ++
    (if P.copyable a.cls then [⟨.copyT, [bindRank false false true], true, 0⟩] else [])
  else []

/-- An object copied by a constructor of class `t`: the part of it that is a `t`. -/
def Object.slice (P : Program) (t : Nat) (o : Object V) : Object V :=
  ⟨t, fun b => if P.cast t b then o.data b else none⟩

/-- Lines 71-75: the object made for `Handle<i>(a)`, where `a` refers to `o`; `none` if the call does not compile. `_copy()` and
`_move()` are virtual functions of the user that give an object like `o`. For a const rvalue line 73 makes a pointer to a const
object, which does not convert to `I*`. -/
def construct (P : Program) (i : Nat) (a : Arg) (o : Object V) : Option (Object V) :=
  match resolve (candidates P i a) with
  | some .moveI => some o
  | some .copyI => some o
  | some .moveT => if a.isConst || !P.movable a.cls then none else some (o.slice P a.cls)
  | some .copyT => some (o.slice P a.cls)
  | none => none

/-- An object has data for its own classes only, and an argument refers to an object of its static class or one derived from it. -/
structure Refers (P : Program) (a : Arg) (o : Object V) : Prop where
  data : ∀ b v, o.data b = some v → Derives P.toClasses o.cls b
  static : Derives P.toClasses o.cls a.cls

instance (C : Classes) (k t : Nat) : Decidable (Derives C k t) := decidable_of_iff _ (cast_iff C t k)

theorem Derives.trans {C : Classes} {a b c : Nat} (h : Derives C a b) (k : Derives C b c) : Derives C a c := by
  induction h with
  | refl => exact k
  | base hb _ ih => exact .base hb (ih k)

/-- A class comes after the classes it derives from. -/
theorem Derives.le {C : Classes} {a b : Nat} (h : Derives C a b) : b ≤ a := by
  induction h with
  | refl => exact Nat.le_refl _
  | base hb _ ih => exact Nat.le_trans ih (Nat.le_of_lt (C.lt _ _ hb))

theorem slice_self {P : Program} {a : Arg} {o : Object V} (h : Refers P a o) : o.slice P o.cls = o := by
  cases o with
  | mk c d =>
    simp only [Object.slice, Object.mk.injEq, true_and]
    funext b
    by_cases hb : P.cast c b = true
    · rw [if_pos hb]
    · rw [if_neg hb]
      cases hd : d b with
      | none => rfl
      | some v => exact absurd ((cast_iff P.toClasses b c).2 (h.data b v hd)) hb

/-- C110: the object behind a handle constructed from an argument of static class `t`, in all cases. -/
theorem C110_actual (P : Program) (i : Nat) (a : Arg) (o : Object V) :
    construct P i a o =
      if ¬ Derives P.toClasses a.cls i then none
      else if a.lvalue = false ∧ a.isConst = true then none
      else if a.cls = i then some o
      else if a.lvalue = true then (if P.copyable a.cls then some (o.slice P a.cls) else some o)
      else if P.movable a.cls then some (o.slice P a.cls) else none := by
  by_cases hd : Derives P.toClasses a.cls i
  · have hc := (cast_iff P.toClasses i a.cls).2 hd
    rw [if_neg (not_not_intro hd)]
    obtain ⟨t, k, l⟩ := a
    simp only at hc ⊢
    by_cases ht : t = i
    · subst ht
      cases k <;> cases l <;> cases hcp : P.copyable t <;>
        simp [construct, candidates, hc, hcp, resolve, Overload.resolveFrom, Cand.better, bindRank]
    · have hb : (t != i) = true := by simp [ht]
      cases k <;> cases l <;> cases hcp : P.copyable t <;> cases hm : P.movable t <;>
        simp [construct, candidates, hc, hcp, hm, hb, ht, resolve, Overload.resolveFrom, Cand.better, bindRank]
  · have hc : ¬ P.cast a.cls i = true := fun h => hd ((cast_iff P.toClasses i a.cls).1 h)
    rw [if_pos hd]
    simp [construct, candidates, hc, resolve, Overload.resolveFrom]

/-- C110: a handle constructed from an argument whose static class is the interface or the class of the object holds an object of
the same class with the same data, if the construction compiles. -/
theorem C110_faithful_partial (P : Program) (i : Nat) (a : Arg) (o o' : Object V) (hr : Refers P a o) (ha : a.cls = i ∨ a.cls = o.cls)
    (h : construct P i a o = some o') : o' = o := by
  rw [C110_actual] at h
  split at h
  · cases h
  · split at h
    · cases h
    · split at h
      · exact (Option.some.inj h).symm
      · rename_i hni
        have hcl : a.cls = o.cls := ha.resolve_left hni
        have hs : o.slice P a.cls = o := by rw [hcl]; exact slice_self hr
        rw [hs] at h
        split at h
        · split at h <;> exact (Option.some.inj h).symm
        · split at h
          · exact (Option.some.inj h).symm
          · cases h

/-- C110: the construction is faithful in exactly these cases: it compiles, and the static class is the interface, or that of the
object, or the argument is an lvalue of a class that cannot be copied. -/
theorem C110_faithful_iff (P : Program) (i : Nat) (a : Arg) (o o' : Object V) (hr : Refers P a o)
    (h : construct P i a o = some o') :
    o' = o ↔ a.cls = i ∨ a.cls = o.cls ∨ (a.lvalue = true ∧ P.copyable a.cls = false) := by
  constructor
  · intro e
    by_cases hni : a.cls = i
    · exact .inl hni
    · refine .inr ?_
      by_cases hcl : a.cls = o.cls
      · exact .inl hcl
      · refine .inr ?_
        rw [C110_actual] at h
        split at h
        · cases h
        · split at h
          · cases h
          · have hne : some (o.slice P a.cls) ≠ some o' := by
              intro k
              have k := Option.some.inj k
              rw [e] at k
              exact hcl (congrArg Object.cls k)
            cases hl : a.lvalue with
            | true =>
              rw [if_pos hl] at h
              cases hcp : P.copyable a.cls with
              | true => rw [hcp] at h; exact absurd h hne
              | false => exact ⟨rfl, rfl⟩
            | false =>
              rw [hl] at h
              cases hm : P.movable a.cls with
              | true => rw [hm] at h; exact absurd h hne
              | false => rw [hm] at h; simp at h
  · rintro (e | e | ⟨hl, hcp⟩)
    · exact C110_faithful_partial P i a o o' hr (.inl e) h
    · exact C110_faithful_partial P i a o o' hr (.inr e) h
    · rw [C110_actual] at h
      split at h
      · cases h
      · split at h
        · cases h
        · split at h
          · exact (Option.some.inj h).symm
          · rw [hcp] at h
            simp at h
            exact h.symm

/-- C110: in any case the object held is of the static class or that of the argument's object, it derives from the interface, and it has the
argument's data for every class it derives from. -/
theorem C110_part (P : Program) (i : Nat) (a : Arg) (o o' : Object V) (hr : Refers P a o)
    (h : construct P i a o = some o') :
    (o'.cls = a.cls ∨ o'.cls = o.cls) ∧ Derives P.toClasses o'.cls i ∧
    ∀ b, Derives P.toClasses o'.cls b → o'.data b = o.data b := by
  have hs : ∀ b, Derives P.toClasses a.cls b → (o.slice P a.cls).data b = o.data b := by
    intro b hb
    simp [Object.slice, (cast_iff P.toClasses b a.cls).2 hb]
  rw [C110_actual] at h
  split at h
  · cases h
  · rename_i hd
    have hd : Derives P.toClasses a.cls i := Classical.not_not.1 hd
    have hsl : ∀ o', some (o.slice P a.cls) = some o' → (o'.cls = a.cls ∨ o'.cls = o.cls) ∧ Derives P.toClasses o'.cls i ∧
        ∀ b, Derives P.toClasses o'.cls b → o'.data b = o.data b := by
      intro o' e
      have e := (Option.some.inj e).symm
      rw [e]
      exact ⟨.inl rfl, hd, hs⟩
    have hsame : ∀ o', some o = some o' → (o'.cls = a.cls ∨ o'.cls = o.cls) ∧ Derives P.toClasses o'.cls i ∧
        ∀ b, Derives P.toClasses o'.cls b → o'.data b = o.data b := by
      intro o' e
      have e := (Option.some.inj e).symm
      rw [e]
      exact ⟨.inr rfl, hr.static.trans hd, fun _ _ => rfl⟩
    split at h
    · cases h
    · split at h
      · exact hsame _ h
      · split at h
        · split at h
          · exact hsl _ h
          · exact hsame _ h
        · split at h
          · exact hsl _ h
          · cases h

/-- Interface 0, class 1 derived from it, class 2 derived from class 1; all can be copied and moved, except that 0 is abstract. -/
def threeClasses : Program where
  bases := fun k => match k with
    | 1 => [0]
    | 2 => [1]
    | _ => []
  lt := by
    intro k b h
    match k with
    | 0 => simp at h
    | 1 => simp at h; omega
    | 2 => simp at h; omega
    | _ + 3 => simp at h
  wrapper := fun _ _ => none
  wraps := by simp
  copyable := fun k => k != 0
  movable := fun k => k != 0

/-- An object of class 2. -/
def objectOf2 : Object Nat := ⟨2, fun b => if b ≤ 2 then some (b + 10) else none⟩

theorem objectOf2_refers (a : Arg) (h : a.cls ≤ 2) : Refers threeClasses a objectOf2 := by
  have d21 : Derives threeClasses.toClasses 2 1 := .base (b := 1) (by simp [threeClasses]) (.refl 1)
  have d10 : Derives threeClasses.toClasses 1 0 := .base (b := 0) (by simp [threeClasses]) (.refl 0)
  have all : ∀ b, b ≤ 2 → Derives threeClasses.toClasses 2 b := by
    intro b hb
    match b with
    | 0 => exact d21.trans d10
    | 1 => exact d21
    | 2 => exact .refl 2
    | n + 3 => omega
  constructor
  · intro b v hv
    apply all
    by_cases hb : b ≤ 2
    · exact hb
    · simp [objectOf2, hb] at hv
  · exact all _ h

/-- C110 is false: a handle constructed from an lvalue of static class 1 that refers to an object of class 2 holds an object of
class 1 without the data of class 2; the same for an rvalue. Through a reference to the interface the whole object is copied. -/
theorem C110_refuted :
    Refers threeClasses ⟨1, false, true⟩ objectOf2 ∧
    (construct threeClasses 0 ⟨1, false, true⟩ objectOf2).map (fun o => (o.cls, o.data 2)) = some (1, none) ∧
    (construct threeClasses 0 ⟨1, false, false⟩ objectOf2).map (fun o => (o.cls, o.data 2)) = some (1, none) ∧
    (construct threeClasses 0 ⟨0, true, true⟩ objectOf2).map (fun o => (o.cls, o.data 2)) = some (2, some 12) := by
  refine ⟨objectOf2_refers _ (by decide), ?_, ?_, ?_⟩ <;> decide +kernel

/-- C110: which constructions compile: the argument derives from the interface; it is no const rvalue; and a non-const rvalue of
another class than the interface can be moved. -/
theorem C110_compiles (P : Program) (i : Nat) (a : Arg) (o : Object V) :
    (construct P i a o).isSome = true ↔
      Derives P.toClasses a.cls i ∧ (a.lvalue = true ∨ (a.isConst = false ∧ (a.cls = i ∨ P.movable a.cls = true))) := by
  rw [C110_actual]
  by_cases hd : Derives P.toClasses a.cls i
  · obtain ⟨t, k, l⟩ := a
    by_cases ht : t = i <;> cases k <;> cases l <;> cases hcp : P.copyable t <;> cases hm : P.movable t <;> simp_all
  · simp [hd]

example : (construct threeClasses 0 ⟨2, false, true⟩ objectOf2).map (fun o => (o.cls, o.data 2)) = some (2, some 12) := by
  decide +kernel
example : construct threeClasses 0 ⟨2, true, false⟩ objectOf2 = none := by
  rw [C110_actual]; simp

/-! ## `make_handle` (lines 119-121) -/

/-- The constructors of the class `T` behind `make_handle<T>`, by the constness and category of their arguments; `none` if there is no
usable one. -/
abbrev Ctors (A V : Type) := List (A × Bool × Bool) → Option (Object V)

/-- Lines 119-121: the arguments are passed on by name, so as lvalues; the handle holds the object made. -/
def makeHandle {A : Type} (ctors : Ctors A V) (args : List (A × Bool × Bool)) : Option (Object V) :=
  ctors (args.map fun x => (x.1, x.2.1, true))

/-- C110: `make_handle<T>(args...)` makes the object `T(args...)` when all arguments are lvalues. -/
theorem C110_makeHandle_partial {A : Type} (ctors : Ctors A V) (args : List (A × Bool × Bool))
    (h : ∀ x ∈ args, x.2.2 = true) : makeHandle ctors args = ctors args := by
  have : args.map (fun x => (x.1, x.2.1, true)) = args := by
    rw [List.map_congr_left (g := id)]
    · simp
    · rintro ⟨x, k, l⟩ hx
      have := h _ hx
      simp at this
      simp [this]
  simp [makeHandle, this]

/-- C110: `make_handle` makes the object that `T` makes of lvalues, so agrees with `T(args...)` for all arguments iff the
constructors of `T` do not distinguish lvalues from rvalues. -/
theorem C110_makeHandle_iff {A : Type} (ctors : Ctors A V) :
    (∀ args, makeHandle ctors args = ctors args) ↔
      ∀ args args' : List (A × Bool × Bool), args.map (fun x => (x.1, x.2.1)) = args'.map (fun x => (x.1, x.2.1)) →
        ctors args = ctors args' := by
  constructor
  · intro h a a' e
    rw [← h a, ← h a']
    have : ∀ l : List (A × Bool × Bool), l.map (fun x => (x.1, x.2.1, true)) =
        (l.map (fun x => (x.1, x.2.1))).map (fun y => (y.1, y.2, true)) := by
      intro l; simp
    simp only [makeHandle]
    rw [this a, this a', e]
  · intro h args
    exact h _ _ (by simp)

/-- C110 is false for `make_handle`: from an rvalue of a class that can only be moved it does not compile, although `T(args...)` does. -/
theorem C110_makeHandle_refuted : ∃ (ctors : Ctors Nat Nat) (args : List (Nat × Bool × Bool)),
    (ctors args).isSome = true ∧ makeHandle ctors args = none :=
  ⟨fun l => match l with
      | [(n, false, false)] => some ⟨0, fun _ => some n⟩
      | _ => none, [(7, false, false)], by simp, by simp [makeHandle]⟩

example : makeHandle (fun l : List (Nat × Bool × Bool) => (l.head?.map fun x => (⟨0, fun _ => some x.1⟩ : Object Nat))) [(7, true, true)] =
    some ⟨0, fun _ => some 7⟩ := rfl

end Helper.Handle
