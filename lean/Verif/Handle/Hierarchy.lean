import Verif.Handle.Props
/-!
# Casts of handles in class hierarchies with repeated, virtual and non-public bases (handle.hpp:54-60, 129-180)

`Classes` of `Model.lean` takes inheritance as public and unambiguous. Here a class may be a base of another
one several times, virtually or not, and publicly or not. `dynamic_cast` is as in the standard
([expr.dynamic.cast]), for code outside of the classes (no friends); that casts share ownership is C57.
Classes are numbered in the order of their definitions.
-/
set_option linter.unusedSectionVars false
namespace Helper.Handle.Hierarchy

/-- A direct base in the definition of a class. -/
structure Base where
  cls : Nat
  virt : Bool
  pub : Bool
  deriving DecidableEq

/-- The classes of a program: the bases of a class are defined before it, and each is named once. -/
structure Hier where
  bases : Nat → List Base
  lt : ∀ k b, b ∈ bases k → b.cls < k
  distinct : ∀ k, ((bases k).map Base.cls).Nodup

/-- A subobject: its class, and the classes through which it is reached, the nearest first, beginning
with the whole object or with a virtual base. -/
structure Sub where
  cls : Nat
  via : List Nat
  deriving DecidableEq

/-- The whole object of class `k`; also its virtual base of class `k`, of which there is one. -/
def whole (k : Nat) : Sub := ⟨k, []⟩

/-- The subobject for a direct base. -/
def Sub.base (s : Sub) (b : Base) : Sub := if b.virt then ⟨b.cls, []⟩ else ⟨b.cls, s.cls :: s.via⟩

/-- The subobjects of `s`, itself included, down to the depth `n`; with `p` only those reached through
public bases. -/
def Hier.partsN (H : Hier) (p : Bool) : Nat → Sub → List Sub
  | 0, _ => []
  | n + 1, s => s :: ((H.bases s.cls).filter fun b => !p || b.pub).flatMap fun b => H.partsN p n (s.base b)

/-- All subobjects, or all public ones: the depth is bounded by the number of the class. -/
def Hier.parts (H : Hier) (p : Bool) (s : Sub) : List Sub := H.partsN p (s.cls + 1) s

/-- The only element of a list, which may be repeated in it. -/
def only : List Sub → Option Sub
  | [] => none
  | a :: r => if r.all (· == a) then some a else none

/-- The second case of [expr.dynamic.cast]/8: the pointer is to a public base of the whole object, and
`t` is an unambiguous public base of its class `k`. -/
def Hier.cross (H : Hier) (k : Nat) (s : Sub) (t : Nat) : Option Sub :=
  if s ∈ H.parts true (whole k) then
    match only ((H.parts false (whole k)).filter fun x => x.cls == t) with
    | some x => if x ∈ H.parts true (whole k) then some x else none
    | none => none
  else none

/-- `dynamic_cast` to `t` at run time, of a pointer to the subobject `s` of an object of class `k`. The
first case: only one object of class `t` is derived from `s`, and `s` is a public base of it. -/
def Hier.dynCast (H : Hier) (k : Nat) (s : Sub) (t : Nat) : Option Sub :=
  match only ((H.parts false (whole k)).filter fun x => x.cls == t && decide (s ∈ H.parts false x)) with
  | some x => if s ∈ H.parts true x then some x else H.cross k s t
  | none => H.cross k s t

inductive Cast where
  | illFormed
  | null
  | to (s : Sub)
  deriving DecidableEq

/-- The subobject `x` of a whole object, as one of the subobject `s` of the same class. -/
def Sub.inside (s x : Sub) : Sub :=
  if (x.cls :: x.via).getLast? = some s.cls then ⟨x.cls, x.via ++ s.via⟩ else x

/-- `dynamic_cast<T*>(p)` for `p` to the subobject `s` (its class is the static type) of an object of
class `k`: a conversion if `t` is the class or a base of it, ill-formed if that base is ambiguous or not
public ([expr.dynamic.cast]/5); at run time otherwise. So for `std::dynamic_pointer_cast`. -/
def Hier.castPtr (H : Hier) (k : Nat) (s : Sub) (t : Nat) : Cast :=
  if t = s.cls then .to s
  else if t ∈ (H.parts false (whole s.cls)).map Sub.cls then
    match only ((H.parts false (whole s.cls)).filter fun x => x.cls == t) with
    | some x => if x ∈ H.parts true (whole s.cls) then .to (s.inside x) else .illFormed
    | none => .illFormed
  else
    match H.dynCast k s t with
    | some x => .to x
    | none => .null

/-- Lines 145-154 and 160-169 `dynamic_handle_extract<t>` for a handle whose pointer is to `s`, and lines
173-180; `w` is the class `Wrapper<t,i>`. `null` stands for `std::bad_cast`. The conversion of a pointer to
the wrapper to one to `t` (lines 149, 164, 176) is compiled whether it is needed or not. -/
def Hier.extract (H : Hier) (k : Nat) (s : Sub) (t w : Nat) : Cast :=
  match H.castPtr k s t, H.castPtr w (whole w) t with
  | .illFormed, _ => .illFormed
  | _, .illFormed => .illFormed
  | .to x, _ => .to x
  | .null, _ =>
    match H.castPtr k s w with
    | .to y => H.castPtr k y t
    | r => r

/-- `Wrapper<t,i>` (lines 54-60) is the class `w`. -/
def Hier.Wraps (H : Hier) (t i w : Nat) : Prop := H.bases w = [⟨i, true, true⟩, ⟨t, false, true⟩]

/-! ## Specification: subobjects as a relation -/

/-- `x` is `s` or a base of it, through bases with the property `P`. -/
inductive Has (H : Hier) (P : Base → Prop) : Sub → Sub → Prop
  | refl (s : Sub) : Has H P s s
  | step {s x : Sub} (b : Base) : b ∈ H.bases s.cls → P b → Has H P (s.base b) x → Has H P s x

/-- Base of any access. -/
abbrev Part (H : Hier) : Sub → Sub → Prop := Has H fun _ => True
/-- Public base. -/
abbrev Pub (H : Hier) : Sub → Sub → Prop := Has H fun b => b.pub = true

/-- The class `t` occurs in objects of class `k`. -/
def Occurs (H : Hier) (k t : Nat) : Prop := ∃ x, Part H (whole k) x ∧ x.cls = t

/-- It occurs at most once. -/
def Once (H : Hier) (k t : Nat) : Prop :=
  ∀ x y, Part H (whole k) x → Part H (whole k) y → x.cls = t → y.cls = t → x = y

/-- All bases of objects of class `k` are public and unambiguous. -/
def Regular (H : Hier) (k : Nat) : Prop :=
  (∀ t, Once H k t) ∧ ∀ x, Part H (whole k) x → Pub H (whole k) x

/-! ## The lists of subobjects -/

@[simp] theorem base_cls (s : Sub) (b : Base) : (s.base b).cls = b.cls := by
  unfold Sub.base; split <;> rfl

theorem Has.trans {H : Hier} {P : Base → Prop} {a b c : Sub} (h : Has H P a b) (g : Has H P b c) : Has H P a c := by
  induction h with
  | refl => exact g
  | step b hb hp _ ih => exact .step b hb hp (ih g)

theorem Has.part {H : Hier} {P : Base → Prop} {a b : Sub} (h : Has H P a b) : Part H a b := by
  induction h with
  | refl => exact .refl _
  | step b hb _ _ ih => exact .step b hb trivial ih

theorem Has.le {H : Hier} {P : Base → Prop} {a b : Sub} (h : Has H P a b) : b.cls ≤ a.cls := by
  induction h with
  | refl => exact Nat.le_refl _
  | step b hb _ _ ih =>
    have := H.lt _ _ hb
    rw [base_cls] at ih
    omega

/-- A subobject of the same class is the object itself. -/
theorem Has.eq_of_cls {H : Hier} {P : Base → Prop} {a b : Sub} (h : Has H P a b) (e : b.cls = a.cls) : b = a := by
  cases h with
  | refl => rfl
  | step b hb _ h' =>
    have h1 := H.lt _ _ hb
    have h2 := h'.le
    rw [base_cls] at h2
    omega

theorem mem_partsN (H : Hier) (p : Bool) : ∀ (n : Nat) (s x : Sub), s.cls < n →
    (x ∈ H.partsN p n s ↔ Has H (fun b => p = true → b.pub = true) s x)
  | 0, s, x, h => absurd h (Nat.not_lt_zero _)
  | n + 1, s, x, h => by
    rw [Hier.partsN, List.mem_cons, List.mem_flatMap]
    constructor
    · rintro (rfl | ⟨b, hb, hx⟩)
      · exact .refl _
      · rw [List.mem_filter] at hb
        have hlt := H.lt _ _ hb.1
        refine .step b hb.1 ?_ ((mem_partsN H p n _ x (by rw [base_cls]; omega)).1 hx)
        intro hp
        simpa [hp] using hb.2
    · intro hx
      cases hx with
      | refl => exact .inl rfl
      | step b hb hp hx =>
        have hlt := H.lt _ _ hb
        refine .inr ⟨b, List.mem_filter.2 ⟨hb, ?_⟩, (mem_partsN H p n _ x (by rw [base_cls]; omega)).2 hx⟩
        cases p with
        | false => rfl
        | true => simpa using hp rfl

theorem mem_parts_false {H : Hier} {s x : Sub} : x ∈ H.parts false s ↔ Part H s x := by
  unfold Hier.parts
  rw [mem_partsN H false _ _ _ (Nat.lt_succ_self _)]
  constructor
  · intro h
    induction h with
    | refl => exact .refl _
    | step b hb _ _ ih => exact .step b hb trivial ih
  · intro h
    induction h with
    | refl => exact .refl _
    | step b hb _ _ ih => exact .step b hb (fun h => by cases h) ih

theorem mem_parts_true {H : Hier} {s x : Sub} : x ∈ H.parts true s ↔ Pub H s x := by
  unfold Hier.parts
  rw [mem_partsN H true _ _ _ (Nat.lt_succ_self _)]
  constructor
  · intro h
    induction h with
    | refl => exact .refl _
    | step b hb hp _ ih => exact .step b hb (hp rfl) ih
  · intro h
    induction h with
    | refl => exact .refl _
    | step b hb hp _ ih => exact .step b hb (fun _ => hp) ih

theorem only_some {l : List Sub} {a : Sub} : only l = some a ↔ a ∈ l ∧ ∀ b ∈ l, b = a := by
  cases l with
  | nil => simp [only]
  | cons c r =>
    rw [only]
    split
    · rename_i h
      rw [List.all_eq_true] at h
      constructor
      · rintro ⟨⟩
        refine ⟨List.mem_cons_self, fun b hb => ?_⟩
        rcases List.mem_cons.1 hb with h' | h'
        · exact h'
        · exact beq_iff_eq.1 (h b h')
      · rintro ⟨ha, hb⟩
        rw [hb c List.mem_cons_self]
    · rename_i h
      constructor
      · intro h'; cases h'
      · rintro ⟨ha, hb⟩
        refine absurd (List.all_eq_true.2 fun b hb' => ?_) h
        rw [beq_iff_eq, hb b (List.mem_cons_of_mem _ hb'), hb c List.mem_cons_self]

theorem only_none {l : List Sub} : only l = none ↔ ∀ a, a ∈ l → ∃ b, b ∈ l ∧ b ≠ a := by
  constructor
  · intro h a ha
    apply Classical.byContradiction
    intro hn
    have : only l = some a := only_some.2 ⟨ha, fun b hb => Classical.byContradiction fun hne => hn ⟨b, hb, hne⟩⟩
    rw [h] at this
    cases this
  · intro h
    cases e : only l with
    | none => rfl
    | some a =>
      obtain ⟨ha, hb⟩ := only_some.1 e
      obtain ⟨b, hb', hne⟩ := h a ha
      exact absurd (hb b hb') hne

/-! ## A subobject is like a whole object of its class -/

theorem last_of_part {H : Hier} {k : Nat} {x : Sub} (h : Part H (whole k) x) :
    ∃ v, (x.cls :: x.via).getLast? = some v ∧ x.cls ≤ v ∧ v ≤ k := by
  have key : ∀ {s y : Sub}, Part H s y → (∃ v, (s.cls :: s.via).getLast? = some v ∧ s.cls ≤ v ∧ v ≤ k) →
      ∃ v, (y.cls :: y.via).getLast? = some v ∧ y.cls ≤ v ∧ v ≤ k := by
    intro s y hs
    induction hs with
    | refl s => exact id
    | step b hb _ _ ih =>
      rename_i s y
      rintro ⟨v, h1, h2, h3⟩
      apply ih
      have hlt := H.lt _ _ hb
      unfold Sub.base
      split
      · exact ⟨b.cls, rfl, Nat.le_refl _, by omega⟩
      · exact ⟨v, by simpa [List.getLast?_cons_cons] using h1, by dsimp only; omega, h3⟩
  exact key h ⟨k, rfl, Nat.le_refl _, Nat.le_refl _⟩

theorem inside_cls (s x : Sub) : (s.inside x).cls = x.cls := by
  unfold Sub.inside; split <;> rfl

theorem inside_whole (s : Sub) : s.inside (whole s.cls) = s := by
  simp [Sub.inside, whole]

theorem inside_base {H : Hier} {s x : Sub} {b : Base} (hb : b ∈ H.bases x.cls) (hx : x.cls ≤ s.cls) :
    s.inside (x.base b) = (s.inside x).base b := by
  have hlt := H.lt _ _ hb
  unfold Sub.base
  split
  · unfold Sub.inside
    rw [if_neg]
    simp only [List.getLast?_singleton, Option.some.injEq]
    omega
  · rw [inside_cls]
    unfold Sub.inside
    simp only [List.getLast?_cons_cons]
    split
    · simp
    · rfl

/-- Each subobject of the whole is one of `s`. -/
theorem has_inside {H : Hier} {P : Base → Prop} {s : Sub} : ∀ {x y : Sub}, Has H P x y → x.cls ≤ s.cls →
    Has H P (s.inside x) (s.inside y) := by
  intro x y h
  induction h with
  | refl x => intro _; exact .refl _
  | step b hb hp _ ih =>
    intro hx
    have hlt := H.lt _ _ hb
    have := ih (by rw [base_cls]; omega)
    rw [inside_base hb hx] at this
    exact .step b (by rw [inside_cls]; exact hb) hp this

/-- And each subobject of `s` is one of the whole. -/
theorem inside_has {H : Hier} {P : Base → Prop} {s : Sub} : ∀ {x' y' : Sub}, Has H P x' y' → ∀ x : Sub, x' = s.inside x → x.cls ≤ s.cls →
    ∃ y, y' = s.inside y ∧ Has H P x y := by
  intro x' y' h
  induction h with
  | refl x' => intro x hx _; exact ⟨x, hx, .refl _⟩
  | step b hb hp _ ih =>
    intro x hx hle
    subst hx
    rw [inside_cls] at hb
    have hlt := H.lt _ _ hb
    obtain ⟨y, hy, h⟩ := ih (x.base b) (inside_base hb hle).symm (by rw [base_cls]; omega)
    exact ⟨y, hy, .step b hb hp h⟩

theorem has_iff_inside {H : Hier} {P : Base → Prop} {s y' : Sub} :
    Has H P s y' ↔ ∃ y, y' = s.inside y ∧ Has H P (whole s.cls) y := by
  constructor
  · intro h
    exact inside_has h (whole s.cls) (inside_whole s).symm (Nat.le_refl _)
  · rintro ⟨y, rfl, h⟩
    have := has_inside (s := s) h (Nat.le_refl _)
    rwa [inside_whole] at this

theorem inside_inj {H : Hier} {k : Nat} {s x y : Sub} (hs : Part H (whole k) s) (hx : Part H (whole s.cls) x) (hy : Part H (whole s.cls) y)
    (h : s.inside x = s.inside y) : x = y := by
  have hlast : ∀ z : Sub, (z.cls :: z.via).getLast? = some s.cls →
      (z.cls :: (z.via ++ s.via)).getLast? = (s.cls :: s.via).getLast? := by
    intro z hz
    rw [← List.cons_append, List.getLast?_append, hz]
    cases e : s.via with
    | nil => rfl
    | cons a r => simp [List.getLast?_cons]
  obtain ⟨r, hr, hr1, _⟩ := last_of_part hs
  obtain ⟨u, hu, _, hu2⟩ := last_of_part hx
  obtain ⟨v, hv, _, hv2⟩ := last_of_part hy
  unfold Sub.inside at h
  split at h
  · rename_i e1
    split at h
    · rename_i e2
      injection h with h1 h2
      have h3 := List.append_cancel_right h2
      cases x; cases y
      simp_all
    · rename_i e2
      have h4 := hlast x e1
      rw [← h, h4, hr] at hv
      rw [← h, h4, hr] at e2
      cases hv
      exact absurd (by congr 1; omega) e2
  · rename_i e1
    split at h
    · rename_i e2
      have h4 := hlast y e2
      rw [h, h4, hr] at hu
      rw [h, h4, hr] at e1
      cases hu
      exact absurd (by congr 1; omega) e1
    · exact h

end Helper.Handle.Hierarchy
