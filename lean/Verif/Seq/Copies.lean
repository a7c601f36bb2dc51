set_option linter.unusedSectionVars false
/-!
# Property C145: the copies that printing makes

The printers of container.hpp walk with `for(auto x : v)` and so copy every element, together with all that it contains; the printers
of lists, pairs and tuples use references. Copying an element, like printing it, may throw.
-/
namespace Helper.Seq.Copies

/-- What is printed: containers, pairs and tuples, and the entries of maps. -/
inductive Kind where
  | array | vector | shared | set | map | list | pair | tuple | entry
deriving DecidableEq, Repr

mutual
/-- A value: an element of a class with a copy constructor, with its identity and its text, or a container. The entries of a map are
nodes `entry` with a key and a value. -/
inductive Val where
  | leaf (i : Nat) (t : List Char)
  | node (k : Kind) (vs : Vals)
inductive Vals where
  | nil
  | cons (v : Val) (vs : Vals)
end

/-- container.hpp:51-69, 127-135, 238-246, 292-300: `for(auto x : v)`. The others print by reference: lists by `write_sequence`
(container.hpp:155-158), pairs and tuples by stlio.hpp:193-199, 211-223, entries within the expression of line 295. -/
def Kind.copies : Kind → Bool
  | .array | .vector | .shared | .set | .map => true
  | .list | .pair | .tuple | .entry => false

/-- array.hpp:237: a copy of a `SharedArray` shares the elements. All other kinds copy what they hold. -/
def Kind.shares : Kind → Bool
  | .shared => true
  | _ => false

/-- The text before the first item. -/
def Kind.opening : Kind → List Char
  | .array | .vector | .shared | .list => ['[']
  | .set => ['{']
  | .map => ['{', ' ']
  | .pair | .tuple => ['(']
  | .entry => []

/-- The text instead of `opening` when there is no item (container.hpp:57, 67, 133, 244, 298). -/
def Kind.emptyOpening : Kind → List Char
  | .map => ['{']
  | k => k.opening

def Kind.separator : Kind → List Char
  | .map => [',', ' ']
  | .entry => [':']
  | _ => [',']

def Kind.closing : Kind → List Char
  | .array | .vector | .shared | .list => [']']
  | .set => ['}']
  | .map => [' ', '}']
  | .pair | .tuple => [')']
  | .entry => []

/-- What happens. -/
inductive Ev where
  /-- the copy constructor of the element `i` or of one of its copies -/ | copy (i : Nat)
  /-- the destructor of a copy of `i` -/ | destroy (i : Nat)
  /-- an element is printed -/ | item (t : List Char)
  /-- brackets, separators -/ | text (t : List Char)
deriving DecidableEq, Repr

/-- How an operation ends. -/
inductive R where
  | ok | exn | ub
deriving DecidableEq, Repr

/-- The history, and the number of copies and items that succeed before one throws. -/
structure State where
  trace : List Ev
  budget : Nat
deriving DecidableEq, Repr

def emit (es : List Ev) (s : State) : State := { s with trace := s.trace ++ es }

/-- A copy or an item. -/
def step (e : Ev) (s : State) : R × State :=
  match s.budget with
  | 0 => (.exn, s)
  | b + 1 => (.ok, ⟨s.trace ++ [e], b⟩)

mutual
/-- The elements that a copy of the value has for itself. -/
def owned : Val → List Nat
  | .leaf i _ => [i]
  | .node k vs => if k.shares then [] else ownedAll vs
def ownedAll : Vals → List Nat
  | .nil => []
  | .cons v vs => owned v ++ ownedAll vs
end

mutual
/-- A copy of the value has a `SharedArray` in it. -/
def sharedIn : Val → Bool
  | .leaf _ _ => false
  | .node k vs => k.shares || sharedInAll vs
def sharedInAll : Vals → Bool
  | .nil => false
  | .cons v vs => sharedIn v || sharedInAll vs
end

/-- The destructor of a copy; the destructor of `SharedArray` is undefined (array.hpp:231, C34). The order, which the standard leaves open
for containers, is not represented. -/
def destroy (v : Val) (s : State) : R × State :=
  if sharedIn v then (.ub, s) else (.ok, emit ((owned v).map .destroy) s)

/-- The destructor runs because of an exception. -/
def unwind (v : Val) (s : State) : R × State :=
  match destroy v s with
  | (.ok, s1) => (.exn, s1)
  | r => r

mutual
/-- The copy constructors of the containers, pairs and tuples: when one throws, what was copied before is destroyed. Not so in an `Array`
(array.hpp:123-124, 209-211): the elements that `_uninitialized_fill` has made are lost. -/
def copyVal : Val → State → R × State
  | .leaf i _, s => step (.copy i) s
  | .node k vs, s => if k.shares then (.ok, s) else copyVals (k == .array) vs s
def copyVals (lose : Bool) : Vals → State → R × State
  | .nil, s => (.ok, s)
  | .cons v vs, s =>
    match copyVal v s with
    | (.ok, s1) =>
      match copyVals lose vs s1 with
      | (.exn, s2) => if lose then (.exn, s2) else unwind v s2
      | r => r
    | r => r
end

mutual
/-- `os << v`: lines 51-59, 61-69, 127-135, 155-158, 238-246, 292-300 of container.hpp, 211-223 of stlio.hpp. -/
def printVal : Val → State → R × State
  | .leaf _ t, s => step (.item t) s
  | .node k vs, s => printItems k true vs s
/-- The loop and what follows it. The copy `x` is made before the bracket or separator is written, and destroyed at the end of the pass or
when an exception leaves it. -/
def printItems (k : Kind) (first : Bool) : Vals → State → R × State
  | .nil, s => (.ok, emit [.text (if first then k.emptyOpening else []), .text k.closing] s)
  | .cons v vs, s =>
    if k.copies then
      match copyVal v s with
      | (.ok, s1) =>
        match printVal v (emit [.text (if first then k.opening else k.separator)] s1) with
        | (.ok, s2) =>
          match destroy v s2 with
          | (.ok, s3) => printItems k false vs s3
          | r => r
        | (.exn, s2) => unwind v s2
        | r => r
      | r => r
    else
      match printVal v (emit [.text (if first then k.opening else k.separator)] s) with
      | (.ok, s2) => printItems k false vs s2
      | r => r
end

/-! ## Specification -/

def Ev.isStep : Ev → Bool
  | .copy _ | .item _ => true
  | _ => false

def Ev.written : Ev → List Char
  | .item t | .text t => t
  | _ => []

/-- What is on the stream. -/
def output (l : List Ev) : List Char := l.flatMap Ev.written

def steps (l : List Ev) : Nat := l.countP Ev.isStep

def made (l : List Ev) (i : Nat) : Nat := l.count (.copy i)
def gone (l : List Ev) (i : Nat) : Nat := l.count (.destroy i)

/-- All copies. -/
def copies (l : List Ev) : Nat := l.countP (fun e => match e with | .copy _ => true | _ => false)

mutual
/-- The text of a value. -/
def text : Val → List Char
  | .leaf _ t => t
  | .node k .nil => k.emptyOpening ++ k.closing
  | .node k (.cons v vs) => k.opening ++ text v ++ textRest k vs
def textRest (k : Kind) : Vals → List Char
  | .nil => k.closing
  | .cons v vs => k.separator ++ text v ++ textRest k vs
end

mutual
/-- The ways from the value to its elements, as the kinds of the containers passed. -/
def paths : Val → List (List Kind)
  | .leaf _ _ => [[]]
  | .node k vs => (pathsAll vs).map (k :: ·)
def pathsAll : Vals → List (List Kind)
  | .nil => []
  | .cons v vs => paths v ++ pathsAll vs
end

/-- The number of containers on the way that are printed with copies. -/
def weight (p : List Kind) : Nat := p.countP Kind.copies

mutual
/-- A `SharedArray` is copied when the value is printed. -/
def clash : Val → Bool
  | .leaf _ _ => false
  | .node k vs => clashItems k vs
def clashItems (k : Kind) : Vals → Bool
  | .nil => false
  | .cons v vs => (k.copies && sharedIn v) || clash v || clashItems k vs
end

mutual
/-- The value has no `Array` in which an element with copies of its own comes after another. -/
def single : Val → Bool
  | .leaf _ _ => true
  | .node k vs => k.shares || singleAll (k == .array) vs
def singleAll (lose : Bool) : Vals → Bool
  | .nil => true
  | .cons v vs => single v && singleAll lose vs && (!lose || (owned v).isEmpty || (ownedAll vs).isEmpty)
end

mutual
/-- No value that is copied is or has an `Array` of two or more elements. -/
def tidy : Val → Bool
  | .leaf _ _ => true
  | .node k vs => tidyItems k vs
def tidyItems (k : Kind) : Vals → Bool
  | .nil => true
  | .cons v vs => (!k.copies || single v) && tidy v && tidyItems k vs
end

/-- The history until the copy or item number `b`, excluded. -/
def cut : Nat → List Ev → List Ev
  | _, [] => []
  | b, e :: l =>
    if e.isStep then
      match b with
      | 0 => []
      | b + 1 => e :: cut b l
    else e :: cut b l

/-- No copy is destroyed that was not made before. -/
def Safe (l : List Ev) : Prop := ∀ n i, gone (l.take n) i ≤ made (l.take n) i

/-! ## Lemmas -/

mutual
/-- The history when nothing throws. -/
def full : Val → List Ev
  | .leaf _ t => [.item t]
  | .node k vs => fullItems k true vs
def fullItems (k : Kind) (first : Bool) : Vals → List Ev
  | .nil => [.text (if first then k.emptyOpening else []), .text k.closing]
  | .cons v vs =>
    (if k.copies then (owned v).map Ev.copy else []) ++ ([.text (if first then k.opening else k.separator)] ++
      (full v ++ ((if k.copies then (owned v).map Ev.destroy else []) ++ fullItems k false vs)))
end

theorem made_append (a b i) : made (a ++ b) i = made a i + made b i := by simp [made]
theorem gone_append (a b i) : gone (a ++ b) i = gone a i + gone b i := by simp [gone]
theorem steps_append (a b) : steps (a ++ b) = steps a + steps b := by simp [steps]
theorem copies_append (a b) : copies (a ++ b) = copies a + copies b := by simp [copies]

theorem made_copy (l : List Nat) (i) : made (l.map Ev.copy) i = l.count i := by
  induction l with
  | nil => rfl
  | cons a l ih =>
    simp only [made, List.map_cons, List.count_cons] at ih ⊢
    rw [ih]; simp

theorem gone_destroy (l : List Nat) (i) : gone (l.map Ev.destroy) i = l.count i := by
  induction l with
  | nil => rfl
  | cons a l ih =>
    simp only [gone, List.map_cons, List.count_cons] at ih ⊢
    rw [ih]; simp

theorem gone_copy (l : List Nat) (i) : gone (l.map Ev.copy) i = 0 := by
  induction l with
  | nil => rfl
  | cons a l ih => simp only [gone, List.map_cons, List.count_cons] at ih ⊢; rw [ih]; simp

theorem made_destroy (l : List Nat) (i) : made (l.map Ev.destroy) i = 0 := by
  induction l with
  | nil => rfl
  | cons a l ih => simp only [made, List.map_cons, List.count_cons] at ih ⊢; rw [ih]; simp

theorem steps_copy (l : List Nat) : steps (l.map Ev.copy) = l.length := by
  induction l with
  | nil => rfl
  | cons a l ih => simp only [steps, List.map_cons, List.countP_cons] at ih ⊢; rw [ih]; simp [Ev.isStep]

theorem steps_destroy (l : List Nat) : steps (l.map Ev.destroy) = 0 := by
  induction l with
  | nil => rfl
  | cons a l ih => simp only [steps, List.map_cons, List.countP_cons] at ih ⊢; rw [ih]; simp [Ev.isStep]

theorem copies_copy (l : List Nat) : copies (l.map Ev.copy) = l.length := by
  induction l with
  | nil => rfl
  | cons a l ih => simp only [copies, List.map_cons, List.countP_cons] at ih ⊢; rw [ih]; simp

theorem copies_destroy (l : List Nat) : copies (l.map Ev.destroy) = 0 := by
  induction l with
  | nil => rfl
  | cons a l ih => simp only [copies, List.map_cons, List.countP_cons] at ih ⊢; rw [ih]; simp

theorem cut_full (l : List Ev) : ∀ b, steps l ≤ b → cut b l = l := by
  induction l with
  | nil => intro b _; rfl
  | cons e l ih =>
    intro b h
    simp only [steps, List.countP_cons] at h ih
    unfold cut
    cases he : e.isStep
    · simp [ih b (by simp [he] at h; exact h)]
    · simp [he] at h
      cases b with
      | zero => omega
      | succ b => simp [ih b (by omega)]

theorem cut_other (e : Ev) (l : List Ev) (b : Nat) (h : e.isStep = false) : cut b (e :: l) = e :: cut b l := by
  rw [cut.eq_def]; simp [h]

theorem cut_more (e : Ev) (l : List Ev) (b : Nat) (h : e.isStep = true) : cut (b + 1) (e :: l) = e :: cut b l := by
  rw [cut]; simp [h]

theorem cut_append_le (l₁ l₂ : List Ev) : ∀ b, steps l₁ ≤ b → cut b (l₁ ++ l₂) = l₁ ++ cut (b - steps l₁) l₂ := by
  induction l₁ with
  | nil => intro b _; simp [steps]
  | cons e l ih =>
    intro b h
    simp only [steps, List.countP_cons] at h ih ⊢
    rw [List.cons_append]
    cases he : e.isStep
    · simp [he] at h
      rw [cut_other _ _ _ he, ih b h]
      simp
    · simp [he] at h
      cases b with
      | zero => omega
      | succ b =>
        rw [cut_more _ _ _ he, ih b (by omega)]
        have e2 : b + 1 - (List.countP Ev.isStep l + 1) = b - List.countP Ev.isStep l := by omega
        simp [e2]

theorem cut_append_lt (l₁ l₂ : List Ev) : ∀ b, b < steps l₁ → cut b (l₁ ++ l₂) = cut b l₁ := by
  induction l₁ with
  | nil => intro b h; simp [steps] at h
  | cons e l ih =>
    intro b h
    simp only [steps, List.countP_cons] at h ih
    rw [List.cons_append]
    unfold cut
    cases he : e.isStep
    · simp [he] at h
      simp [ih b h]
    · simp [he] at h
      cases b with
      | zero => rfl
      | succ b => simp [ih b (by omega)]

/-- A run follows the history `l`, or throws in it, after which what is alive is destroyed (`D`) or lost (`L`), or is undefined. -/
def Follows (C T : Bool) (l : List Ev) (s : State) (r : R × State) : Prop :=
  (r.1 = .ub ∧ C = true) ∨
  (steps l ≤ s.budget ∧ r = (.ok, ⟨s.trace ++ l, s.budget - steps l⟩)) ∨
  (s.budget < steps l ∧ r.1 = .exn ∧ ∃ D L : List Nat, r.2.trace = s.trace ++ (cut s.budget l ++ D.map Ev.destroy) ∧
    (∀ i, made (cut s.budget l) i = gone (cut s.budget l) i + D.count i + L.count i) ∧ (T = true → L = []))

theorem Follows.mono {C T C' T' : Bool} {l : List Ev} {s : State} {r : R × State} (h : Follows C T l s r)
    (hC : C = true → C' = true) (hT : T' = true → T = true) : Follows C' T' l s r := by
  cases h with
  | inl h => exact .inl ⟨h.1, hC h.2⟩
  | inr h =>
    right
    cases h with
    | inl h => exact .inl h
    | inr h =>
      obtain ⟨h1, h2, D, L, h3, h4, h5⟩ := h
      exact .inr ⟨h1, h2, D, L, h3, h4, fun t => h5 (hT t)⟩

theorem follows_step (e : Ev) (he : e.isStep = true) (s : State) : Follows false true [e] s (step e s) := by
  cases s with
  | mk tr b =>
  right
  cases b with
  | zero =>
    right
    refine ⟨by simp [steps, he], rfl, [], [], ?_, ?_, fun _ => rfl⟩
    · simp [step, cut, he]
    · intro i; simp [cut, he, made, gone]
  | succ b =>
    left
    refine ⟨by simp [steps, he], ?_⟩
    simp [step, steps, he]

theorem follows_emit (C T : Bool) (es : List Ev) (h : steps es = 0) (l : List Ev) (s : State) (r : R × State)
    (hb : ∀ i, made es i = gone es i) (f : Follows C T l (emit es s) r) : Follows C T (es ++ l) s r := by
  obtain f | f | f := f
  · exact .inl f
  · right; left
    refine ⟨by rw [steps_append, h]; simpa [emit] using f.1, ?_⟩
    rw [f.2, steps_append, h]; simp [emit]
  · right; right
    obtain ⟨h1, h2, D, L, h3, h4, h5⟩ := f
    simp only [emit] at h1 h3 h4
    refine ⟨by rw [steps_append, h]; omega, h2, D, L, ?_, ?_, h5⟩
    · rw [h3, cut_append_le es l _ (by omega), h]; simp
    · intro i
      rw [cut_append_le es l _ (by omega), h, made_append, gone_append, hb i]
      have := h4 i
      simp only [Nat.sub_zero] at this ⊢
      omega

/-- A part that ends early. -/
theorem follows_early (C T : Bool) (l₁ l₂ : List Ev) (s : State) (r : R × State) (f : Follows C T l₁ s r) (h : r.1 ≠ .ok) :
    Follows C T (l₁ ++ l₂) s r := by
  obtain f | f | f := f
  · exact .inl f
  · rw [f.2] at h; exact absurd rfl h
  · obtain ⟨f1, f2, D, L, f3, f4, f5⟩ := f
    right; right
    refine ⟨by rw [steps_append]; omega, f2, D, L, ?_, ?_, f5⟩
    · rw [cut_append_lt _ _ _ f1]; exact f3
    · rw [cut_append_lt _ _ _ f1]; exact f4

/-- A part `l₁` that leaves copies of `o` alive, then a part that throws, then their destruction. -/
theorem follows_unwind (C T : Bool) (l₁ l₂ l₃ : List Ev) (s : State) (r : R × State) (v : Val) (hC : sharedIn v = true → C = true)
    (h1 : steps l₁ ≤ s.budget) (hm : ∀ i, made l₁ i = gone l₁ i + (owned v).count i)
    (f : Follows C T l₂ ⟨s.trace ++ l₁, s.budget - steps l₁⟩ r) (hr : r.1 = .exn) :
    Follows C T (l₁ ++ (l₂ ++ l₃)) s (unwind v r.2) := by
  obtain f | f | f := f
  · rw [hr] at f; cases f.1
  · rw [f.2] at hr; cases hr
  · obtain ⟨f1, f2, D, L, f3, f4, f5⟩ := f
    simp only at f1 f3 f4
    unfold unwind destroy
    by_cases hs : sharedIn v = true
    · rw [if_pos hs]; exact .inl ⟨rfl, hC hs⟩
    · rw [if_neg hs]
      right; right
      have e : cut s.budget (l₁ ++ (l₂ ++ l₃)) = l₁ ++ cut (s.budget - steps l₁) l₂ := by
        rw [cut_append_le _ _ _ h1, cut_append_lt _ _ _ f1]
      refine ⟨by simp only [steps_append]; omega, rfl, D ++ owned v, L, ?_, ?_, f5⟩
      · rw [e]; simp only [emit]; rw [f3]; simp
      · intro i
        rw [e, made_append, gone_append, hm i, f4 i, List.count_append]
        omega

theorem follows_rest (C T : Bool) (l₁ l₂ : List Ev) (s : State) (r : R × State) (h1 : steps l₁ ≤ s.budget)
    (hb : ∀ i, made l₁ i = gone l₁ i) (f : Follows C T l₂ ⟨s.trace ++ l₁, s.budget - steps l₁⟩ r) : Follows C T (l₁ ++ l₂) s r := by
  obtain f | f | f := f
  · exact .inl f
  · obtain ⟨g1, g2⟩ := f
    simp only at g1 g2
    right; left
    refine ⟨by rw [steps_append]; omega, ?_⟩
    rw [g2, steps_append, List.append_assoc]
    congr 2
    omega
  · obtain ⟨g1, g2, D, L, g3, g4, g5⟩ := f
    simp only at g1 g3 g4
    right; right
    refine ⟨by rw [steps_append]; omega, g2, D, L, ?_, ?_, g5⟩
    · rw [cut_append_le _ _ _ h1, g3]; simp
    · intro i
      rw [cut_append_le _ _ _ h1, made_append, gone_append, hb i, g4 i]
      omega

theorem steps_nil_of_isEmpty {l : List Nat} (h : l.isEmpty = true) : steps (l.map Ev.copy) = 0 := by
  rw [steps_copy]; simpa using h

mutual
theorem copyVal_follows : (v : Val) → (s : State) → Follows (sharedIn v) (single v) ((owned v).map Ev.copy) s (copyVal v s)
  | .leaf i t, s => by
    simp only [owned, copyVal, List.map_cons, List.map_nil, sharedIn, single]
    exact follows_step _ rfl s
  | .node k vs, s => by
    simp only [owned, copyVal, sharedIn, single]
    by_cases hk : k.shares = true
    · rw [if_pos hk, if_pos hk]
      right; left; exact ⟨by simp [steps], by simp [steps]⟩
    · rw [if_neg hk, if_neg hk]
      refine (copyVals_follows (k == .array) vs s).mono (fun h => by simp [h]) (fun h => by simpa [hk] using h)
theorem copyVals_follows (lose : Bool) : (vs : Vals) → (s : State) →
    Follows (sharedInAll vs) (singleAll lose vs) ((ownedAll vs).map Ev.copy) s (copyVals lose vs s)
  | .nil, s => by right; left; exact ⟨by simp [steps, ownedAll], by simp [steps, ownedAll, copyVals]⟩
  | .cons v vs, s => by
    simp only [ownedAll, List.map_append, copyVals, sharedInAll, singleAll]
    have fv := (copyVal_follows v s).mono (C' := sharedIn v || sharedInAll vs)
      (T' := single v && singleAll lose vs && (!lose || (owned v).isEmpty || (ownedAll vs).isEmpty)) (fun h => by simp [h])
      (fun h => by simp only [Bool.and_eq_true] at h; exact h.1.1)
    cases hr : copyVal v s with
    | mk o s1 =>
    rw [hr] at fv
    cases o with
    | exn => exact follows_early _ _ _ _ _ _ fv (by simp)
    | ub => exact follows_early _ _ _ _ _ _ fv (by simp)
    | ok =>
      obtain f | f | f := fv
      · cases f.1
      rotate_left
      · cases f.2.1
      obtain ⟨h1, h2⟩ := f
      cases h2
      have gv := (copyVals_follows lose vs ⟨s.trace ++ (owned v).map Ev.copy, s.budget - steps ((owned v).map Ev.copy)⟩).mono
        (C' := sharedIn v || sharedInAll vs)
        (T' := single v && singleAll lose vs && (!lose || (owned v).isEmpty || (ownedAll vs).isEmpty)) (fun h => by simp [h])
        (fun h => by simp only [Bool.and_eq_true] at h; exact h.1.2)
      simp only
      cases hg : copyVals lose vs ⟨s.trace ++ (owned v).map Ev.copy, s.budget - steps ((owned v).map Ev.copy)⟩ with
      | mk o s2 =>
      rw [hg] at gv
      cases o with
      | ub =>
        obtain g | g | g := gv
        · exact .inl g
        · cases g.2
        · cases g.2.1
      | ok =>
        obtain g | g | g := gv
        · cases g.1
        rotate_left
        · cases g.2.1
        obtain ⟨g1, g2⟩ := g
        cases g2
        right; left
        refine ⟨by rw [steps_append]; simp only at g1; omega, ?_⟩
        simp only [List.append_assoc, steps_append]
        congr 2
        omega
      | exn =>
        cases lose with
        | false =>
          have := follows_unwind _ _ ((owned v).map Ev.copy) _ [] s _ v (fun h => by simp [h]) h1
            (fun i => by rw [made_copy, gone_copy]; omega) gv rfl
          simpa using this
        | true =>
          obtain g | g | g := gv
          · cases g.1
          · cases g.2
          obtain ⟨g1, g2, D, L, g3, g4, g5⟩ := g
          simp only at g1 g3 g4
          right; right
          refine ⟨by rw [steps_append]; omega, rfl, D, L ++ owned v, ?_, ?_, ?_⟩
          · rw [cut_append_le _ _ _ h1]
            simp only [if_true]
            rw [g3]; simp
          · intro i
            rw [cut_append_le _ _ _ h1, made_append, gone_append, made_copy, gone_copy, g4 i, List.count_append]
            omega
          · intro ht
            rw [g5 ht]
            simp only [Bool.and_eq_true, Bool.not_true, Bool.false_or, Bool.or_eq_true] at ht
            cases ht.2 with
            | inl h => simpa using h
            | inr h =>
              have := steps_nil_of_isEmpty h
              omega
end

mutual
theorem balanced_full : (v : Val) → ∀ i, made (full v) i = gone (full v) i
  | .leaf _ t, i => by simp [full, made, gone]
  | .node k vs, i => by simp only [full]; exact balanced_items k true vs i
theorem balanced_items (k : Kind) (first : Bool) : (vs : Vals) → ∀ i, made (fullItems k first vs) i = gone (fullItems k first vs) i
  | .nil, i => by simp [fullItems, made, gone]
  | .cons v vs, i => by
    have h1 := balanced_full v i
    have h2 := balanced_items k false vs i
    simp only [fullItems, made_append, gone_append]
    rw [h1, h2]
    cases k.copies
    · simp [made, gone]
    · simp only [if_true, made_copy, gone_copy, made_destroy, gone_destroy]
      simp [made, gone]
      omega
end

/-- One pass of a loop with a copy: the copies, the text, the item, the destruction. -/
theorem pass_follows (C T : Bool) (v : Val) (t : List Char) (l : List Ev) (k : State → R × State) (s : State)
    (hc : Follows C T ((owned v).map Ev.copy) s (copyVal v s)) (hC : sharedIn v = true → C = true)
    (hv : ∀ s, Follows C T (full v) s (printVal v s)) (hk : ∀ s, Follows C T l s (k s)) :
    Follows C T ((owned v).map Ev.copy ++ ([.text t] ++ (full v ++ ((owned v).map Ev.destroy ++ l)))) s
      (match copyVal v s with
      | (.ok, s1) =>
        match printVal v (emit [.text t] s1) with
        | (.ok, s2) =>
          match destroy v s2 with
          | (.ok, s3) => k s3
          | r => r
        | (.exn, s2) => unwind v s2
        | r => r
      | r => r) := by
  cases hr : copyVal v s with
  | mk o s1 =>
  rw [hr] at hc
  cases o with
  | exn => exact follows_early _ _ _ _ _ _ hc (by simp)
  | ub => exact follows_early _ _ _ _ _ _ hc (by simp)
  | ok =>
  obtain f | f | f := hc
  · cases f.1
  rotate_left
  · cases f.2.1
  obtain ⟨f1, f2⟩ := f
  cases f2
  have ht : steps [Ev.text t] = 0 := rfl
  have es : steps ((owned v).map Ev.copy ++ [Ev.text t]) = steps ((owned v).map Ev.copy) := by rw [steps_append, ht]; rfl
  have p := hv (emit [.text t] ⟨s.trace ++ (owned v).map Ev.copy, s.budget - steps ((owned v).map Ev.copy)⟩)
  have ee : emit [.text t] ⟨s.trace ++ (owned v).map Ev.copy, s.budget - steps ((owned v).map Ev.copy)⟩ =
      ⟨s.trace ++ ((owned v).map Ev.copy ++ [.text t]), s.budget - steps ((owned v).map Ev.copy ++ [Ev.text t])⟩ := by
    rw [es]; simp [emit]
  simp only
  rw [ee] at p ⊢
  have am : ∀ i, made ((owned v).map Ev.copy ++ [Ev.text t]) i = gone ((owned v).map Ev.copy ++ [Ev.text t]) i + (owned v).count i := by
    intro i
    rw [made_append, gone_append, made_copy, gone_copy]
    have e1 : made [Ev.text t] i = 0 := rfl
    have e2 : gone [Ev.text t] i = 0 := rfl
    omega
  have el : (owned v).map Ev.copy ++ ([Ev.text t] ++ (full v ++ ((owned v).map Ev.destroy ++ l))) =
      ((owned v).map Ev.copy ++ [Ev.text t]) ++ (full v ++ ((owned v).map Ev.destroy ++ l)) := by simp
  rw [el]
  cases hp : printVal v ⟨s.trace ++ ((owned v).map Ev.copy ++ [.text t]), s.budget - steps ((owned v).map Ev.copy ++ [Ev.text t])⟩ with
  | mk o s2 =>
  rw [hp] at p
  cases o with
  | exn => exact follows_unwind C T _ _ _ s _ v hC (by rw [es]; exact f1) am p rfl
  | ub =>
    obtain p | p | p := p
    · exact .inl p
    · cases p.2
    · cases p.2.1
  | ok =>
    obtain p | p | p := p
    · cases p.1
    rotate_left
    · cases p.2.1
    obtain ⟨p1, p2⟩ := p
    cases p2
    simp only
    unfold destroy
    by_cases hs : sharedIn v = true
    · rw [if_pos hs]; exact .inl ⟨rfl, hC hs⟩
    · rw [if_neg hs]
      have el2 : ((owned v).map Ev.copy ++ [Ev.text t]) ++ (full v ++ ((owned v).map Ev.destroy ++ l)) =
          (((owned v).map Ev.copy ++ [Ev.text t]) ++ (full v ++ (owned v).map Ev.destroy)) ++ l := by simp
      rw [el2]
      simp only at p1
      have sd := steps_destroy (owned v)
      have es2 : steps (((owned v).map Ev.copy ++ [Ev.text t]) ++ (full v ++ (owned v).map Ev.destroy)) =
          steps ((owned v).map Ev.copy ++ [Ev.text t]) + steps (full v) := by
        simp only [steps_append, sd]; omega
      refine follows_rest C T _ _ s _ (by rw [es2]; rw [es] at p1 ⊢; omega) ?_ ?_
      · intro i
        rw [made_append, gone_append, am i]
        simp only [made_append, gone_append, made_destroy, gone_destroy, balanced_full v i]
        omega
      · have := hk ⟨s.trace ++ (((owned v).map Ev.copy ++ [Ev.text t]) ++ (full v ++ (owned v).map Ev.destroy)),
          s.budget - steps (((owned v).map Ev.copy ++ [Ev.text t]) ++ (full v ++ (owned v).map Ev.destroy))⟩
        refine Eq.mp ?_ this
        congr 2
        simp only [emit, es2]
        congr 1
        · simp
        · omega

mutual
theorem printVal_follows : (v : Val) → ∀ s : State, Follows (clash v) (tidy v) (full v) s (printVal v s)
  | .leaf i t, s => by
    simp only [full, printVal, clash, tidy]
    exact follows_step _ rfl s
  | .node k vs, s => by
    simp only [full, printVal, clash, tidy]
    exact printItems_follows k true vs s
theorem printItems_follows (k : Kind) (first : Bool) : (vs : Vals) → ∀ s : State,
    Follows (clashItems k vs) (tidyItems k vs) (fullItems k first vs) s (printItems k first vs s)
  | .nil, s => by
    right; left
    exact ⟨by simp [fullItems, steps, Ev.isStep], by simp [fullItems, printItems, steps, Ev.isStep, emit]⟩
  | .cons v vs, s => by
    have hv := fun s => (printVal_follows v s).mono (C' := clashItems k (.cons v vs)) (T' := tidyItems k (.cons v vs))
      (fun h => by simp [clashItems, h]) (fun h => by simp only [tidyItems, Bool.and_eq_true] at h; exact h.1.2)
    have hvs := fun s => (printItems_follows k false vs s).mono (C' := clashItems k (.cons v vs)) (T' := tidyItems k (.cons v vs))
      (fun h => by simp [clashItems, h]) (fun h => by simp only [tidyItems, Bool.and_eq_true] at h; exact h.2)
    by_cases hk : k.copies = true
    · simp only [fullItems, if_pos hk, printItems]
      refine pass_follows _ _ v _ _ _ s ?_ (fun h => by simp [clashItems, h, hk]) hv hvs
      exact (copyVal_follows v s).mono (fun h => by simp [clashItems, h, hk])
        (fun h => by simp only [tidyItems, Bool.and_eq_true, hk] at h; simpa using h.1.1)
    · simp only [fullItems, if_neg hk, List.nil_append, printItems]
      refine follows_emit _ _ _ rfl _ s _ (fun i => rfl) ?_
      have p := hv (emit [.text (if first then k.opening else k.separator)] s)
      cases hp : printVal v (emit [.text (if first then k.opening else k.separator)] s) with
      | mk o s2 =>
      rw [hp] at p
      cases o with
      | exn => exact follows_early _ _ _ _ _ _ p (by simp)
      | ub => exact follows_early _ _ _ _ _ _ p (by simp)
      | ok =>
        obtain p | p | p := p
        · cases p.1
        rotate_left
        · cases p.2.1
        obtain ⟨p1, p2⟩ := p
        cases p2
        exact follows_rest _ _ _ _ _ _ p1 (balanced_full v) (hvs _)
end

mutual
/-- A run that ends well copies no `SharedArray`. -/
theorem printVal_ok : (v : Val) → ∀ s : State, (printVal v s).1 = .ok → clash v = false
  | .leaf _ _, _, _ => rfl
  | .node k vs, s, h => by
    simp only [printVal] at h
    simp only [clash]
    exact printItems_ok k true vs s h
theorem printItems_ok (k : Kind) (first : Bool) : (vs : Vals) → ∀ s : State, (printItems k first vs s).1 = .ok → clashItems k vs = false
  | .nil, _, _ => rfl
  | .cons v vs, s, h => by
    simp only [printItems] at h
    simp only [clashItems]
    by_cases hk : k.copies = true
    · rw [if_pos hk] at h
      cases hr : copyVal v s with
      | mk o s1 =>
      rw [hr] at h
      cases o with
      | exn => cases h
      | ub => cases h
      | ok =>
      simp only at h
      cases hp : printVal v (emit [.text (if first then k.opening else k.separator)] s1) with
      | mk o s2 =>
      rw [hp] at h
      cases o with
      | ub => cases h
      | exn =>
        simp only [unwind, destroy] at h
        by_cases hs : sharedIn v = true
        · rw [if_pos hs] at h; cases h
        · rw [if_neg hs] at h; cases h
      | ok =>
        have c1 := printVal_ok v _ (by rw [hp] : (printVal v (emit [.text (if first then k.opening else k.separator)] s1)).1 = .ok)
        simp only [destroy] at h
        by_cases hs : sharedIn v = true
        · rw [if_pos hs] at h; cases h
        · rw [if_neg hs] at h
          have c2 := printItems_ok k false vs _ h
          simp [hs, c1, c2]
    · rw [if_neg hk] at h
      cases hp : printVal v (emit [.text (if first then k.opening else k.separator)] s) with
      | mk o s2 =>
      rw [hp] at h
      cases o with
      | ub => cases h
      | exn => cases h
      | ok =>
        have c1 := printVal_ok v _ (by rw [hp] : (printVal v (emit [.text (if first then k.opening else k.separator)] s)).1 = .ok)
        have c2 := printItems_ok k false vs _ h
        simp [hk, c1, c2]
end

theorem output_append (a b) : output (a ++ b) = output a ++ output b := by simp [output]

theorem output_copy (l : List Nat) : output (l.map Ev.copy) = [] := by
  induction l with
  | nil => rfl
  | cons a l ih => simp [output, Ev.written]

theorem output_destroy (l : List Nat) : output (l.map Ev.destroy) = [] := by
  induction l with
  | nil => rfl
  | cons a l ih => simp [output, Ev.written]

theorem output_if_copy (b : Bool) (l : List Nat) : output (if b then l.map Ev.copy else []) = [] := by
  cases b
  · rfl
  · exact output_copy l

theorem output_if_destroy (b : Bool) (l : List Nat) : output (if b then l.map Ev.destroy else []) = [] := by
  cases b
  · rfl
  · exact output_destroy l

mutual
theorem output_full : (v : Val) → output (full v) = text v
  | .leaf _ t => by simp [full, text, output, Ev.written]
  | .node k .nil => by simp [full, fullItems, text, output, Ev.written]
  | .node k (.cons v vs) => by
    simp only [full, fullItems, text, output_append, output_if_copy, output_if_destroy, output_full v, output_rest k vs]
    simp [output, Ev.written]
theorem output_rest (k : Kind) : (vs : Vals) → output (fullItems k false vs) = textRest k vs
  | .nil => by simp [fullItems, textRest, output, Ev.written]
  | .cons v vs => by
    simp only [fullItems, textRest, output_append, output_if_copy, output_if_destroy, output_full v, output_rest k vs]
    simp [output, Ev.written]
end

mutual
theorem owned_length : (v : Val) → sharedIn v = false → (owned v).length = (paths v).length
  | .leaf _ _, _ => by simp [owned, paths]
  | .node k vs, h => by
    simp only [sharedIn, Bool.or_eq_false_iff] at h
    simp only [owned, paths, h.1, List.length_map]
    simpa using owned_lengthAll vs h.2
theorem owned_lengthAll : (vs : Vals) → sharedInAll vs = false → (ownedAll vs).length = (pathsAll vs).length
  | .nil, _ => rfl
  | .cons v vs, h => by
    simp only [sharedInAll, Bool.or_eq_false_iff] at h
    simp only [ownedAll, pathsAll, List.length_append, owned_length v h.1, owned_lengthAll vs h.2]
end

theorem weight_cons_sum (k : Kind) (l : List (List Kind)) :
    ((l.map (k :: ·)).map weight).sum = (if k.copies then l.length else 0) + (l.map weight).sum := by
  induction l with
  | nil => cases k.copies <;> rfl
  | cons p l ih =>
    simp only [List.map_cons, List.sum_cons, ih, weight, List.countP_cons, List.length_cons]
    cases k.copies <;> simp <;> omega

mutual
theorem copies_full : (v : Val) → clash v = false → copies (full v) = ((paths v).map weight).sum
  | .leaf _ _, _ => by simp [full, paths, copies, weight]
  | .node k vs, h => by simp only [full, paths, weight_cons_sum]; exact copies_items k true vs h
theorem copies_items (k : Kind) (first : Bool) : (vs : Vals) → clashItems k vs = false →
    copies (fullItems k first vs) = (if k.copies then (pathsAll vs).length else 0) + ((pathsAll vs).map weight).sum
  | .nil, _ => by simp [fullItems, pathsAll, copies]
  | .cons v vs, h => by
    simp only [clashItems, Bool.or_eq_false_iff] at h
    have h1 := copies_full v h.1.2
    have h2 := copies_items k false vs h.2
    simp only [fullItems, pathsAll, copies_append, h1, h2, List.map_append, List.sum_append]
    have e : copies [Ev.text (if first then k.opening else k.separator)] = 0 := rfl
    rw [e]
    cases hk : k.copies
    · have z : copies [] = 0 := rfl
      simp [z]
    · have h3 := owned_length v (by simpa [hk] using h.1.1)
      simp only [if_true, copies_copy, copies_destroy, h3, List.length_append]
      omega
end

theorem steps_text (t) : steps [Ev.text t] = 0 := rfl

mutual
theorem steps_full : (v : Val) → steps (full v) = copies (full v) + (paths v).length
  | .leaf _ _ => by simp [full, paths, copies, steps, Ev.isStep]
  | .node k vs => by simp only [full, paths, List.length_map]; exact steps_items k true vs
theorem steps_items (k : Kind) (first : Bool) : (vs : Vals) →
    steps (fullItems k first vs) = copies (fullItems k first vs) + (pathsAll vs).length
  | .nil => by simp [fullItems, pathsAll, copies, steps, Ev.isStep]
  | .cons v vs => by
    have h1 := steps_full v
    have h2 := steps_items k false vs
    have e : copies [Ev.text (if first then k.opening else k.separator)] = 0 := rfl
    simp only [fullItems, pathsAll, copies_append, steps_append, h1, h2, List.length_append, steps_text, e]
    cases k.copies
    · have z : copies [] = 0 := rfl
      have z2 : steps [] = 0 := rfl
      simp [z, z2]; omega
    · simp only [if_true, copies_copy, copies_destroy, steps_copy, steps_destroy]
      omega
end

/-! Safety of histories. -/

theorem made_take_le (l : List Ev) (n i : Nat) : made (l.take n) i ≤ made l i := (List.take_sublist n l).count_le _
theorem gone_take_le (l : List Ev) (n i : Nat) : gone (l.take n) i ≤ gone l i := (List.take_sublist n l).count_le _

theorem Safe.total {l : List Ev} (h : Safe l) (i : Nat) : gone l i ≤ made l i := by
  have := h l.length i
  rwa [List.take_length] at this

theorem Safe.append {a b : List Ev} (ha : Safe a) (hb : Safe b) : Safe (a ++ b) := by
  intro n i
  rw [List.take_append, made_append, gone_append]
  have h1 := ha n i
  have h2 := hb (n - a.length) i
  omega

theorem Safe.destroy {l : List Ev} (h : Safe l) (D : List Nat) (hD : ∀ i, gone l i + D.count i ≤ made l i) :
    Safe (l ++ D.map Ev.destroy) := by
  intro n i
  rw [List.take_append, made_append, gone_append]
  by_cases hn : n ≤ l.length
  · have : n - l.length = 0 := by omega
    rw [this]
    have := h n i
    simp only [List.take_zero]
    have z1 : gone [] i = 0 := rfl
    have z2 : made [] i = 0 := rfl
    omega
  · rw [List.take_of_length_le (by omega : l.length ≤ n)]
    have h1 := gone_take_le (D.map Ev.destroy) (n - l.length) i
    rw [gone_destroy] at h1
    have := hD i
    omega

theorem safe_of_none {l : List Ev} (h : ∀ i, gone l i = 0) : Safe l := by
  intro n i
  have := gone_take_le l n i
  rw [h i] at this
  omega

mutual
theorem safe_full : (v : Val) → Safe (full v)
  | .leaf _ t => by simp only [full]; exact safe_of_none (fun i => rfl)
  | .node k vs => by simp only [full]; exact safe_items k true vs
theorem safe_items (k : Kind) (first : Bool) : (vs : Vals) → Safe (fullItems k first vs)
  | .nil => by simp only [fullItems]; exact safe_of_none (fun i => rfl)
  | .cons v vs => by
    have h1 := safe_full v
    have h2 := safe_items k false vs
    have ht : Safe [Ev.text (if first then k.opening else k.separator)] := safe_of_none (fun i => rfl)
    simp only [fullItems]
    cases hk : k.copies
    · simp only [Bool.false_eq_true, if_false, List.nil_append]
      exact ht.append (h1.append h2)
    · simp only [if_true]
      have hc : Safe ((owned v).map Ev.copy) := safe_of_none (gone_copy _)
      have hs := (hc.append (ht.append h1)).destroy (owned v) (by
        intro i
        have := h1.total i
        simp only [made_append, gone_append, made_copy, gone_copy]
        have z1 : gone [Ev.text (if first then k.opening else k.separator)] i = 0 := rfl
        omega)
      have e : (owned v).map Ev.copy ++ ([Ev.text (if first then k.opening else k.separator)] ++
          (full v ++ ((owned v).map Ev.destroy ++ fullItems k false vs))) =
          (((owned v).map Ev.copy ++ ([Ev.text (if first then k.opening else k.separator)] ++ full v)) ++
          (owned v).map Ev.destroy) ++ fullItems k false vs := by simp
      rw [e]
      exact hs.append h2
end

theorem cut_prefix (l : List Ev) : ∀ b, cut b l <+: l := by
  induction l with
  | nil => intro b; simp [cut]
  | cons e l ih =>
    intro b
    unfold cut
    split
    · cases b with
      | zero => simp
      | succ b => simpa using ih b
    · simpa using ih b

theorem Safe.prefix {a l : List Ev} (h : Safe l) (p : a <+: l) : Safe a := by
  intro n i
  obtain ⟨t, rfl⟩ := p
  have := h (min n a.length) i
  rw [List.take_append] at this
  have e : min n a.length - a.length = 0 := by omega
  rw [e, List.take_zero, List.append_nil] at this
  by_cases hn : n ≤ a.length
  · rwa [Nat.min_eq_left hn] at this
  · rw [Nat.min_eq_right (by omega), List.take_length] at this
    rwa [List.take_of_length_le (by omega)]

theorem cut_steps (l : List Ev) : ∀ b, b < steps l → steps (cut b l) = b ∧ ∃ e t, e.isStep = true ∧ l = cut b l ++ e :: t := by
  induction l with
  | nil => intro b h; simp [steps] at h
  | cons e l ih =>
    intro b h
    simp only [steps, List.countP_cons] at h ih ⊢
    unfold cut
    cases he : e.isStep
    · simp [he] at h
      obtain ⟨h1, e', t, h2, h3⟩ := ih b h
      refine ⟨by simp [he, h1], e', t, h2, ?_⟩
      simp only [Bool.false_eq_true, if_false, List.cons_append]
      rw [← h3]
    · simp [he] at h
      cases b with
      | zero => exact ⟨by simp, e, l, he, by simp⟩
      | succ b =>
        obtain ⟨h1, e', t, h2, h3⟩ := ih b (by omega)
        refine ⟨by simp [he, h1], e', t, h2, ?_⟩
        simp only [if_true, List.cons_append]
        rw [← h3]

/-- With some point of failure, a copy of `i` is lost. -/
def Loses (f : State → R × State) : Prop :=
  ∃ c i, ∀ s : State, s.budget = c → (f s).1 = .exn ∧ gone (f s).2.trace i + made s.trace i < made (f s).2.trace i + gone s.trace i

theorem copyVal_ok (v : Val) (h : sharedIn v = false) (s : State) (hb : (owned v).length ≤ s.budget) :
    copyVal v s = (.ok, ⟨s.trace ++ (owned v).map Ev.copy, s.budget - (owned v).length⟩) := by
  obtain f | f | f := copyVal_follows v s
  · rw [h] at f; cases f.2
  · rw [f.2, steps_copy]
  · rw [steps_copy] at f; omega

theorem printVal_done (v : Val) (h : clash v = false) (s : State) (hb : steps (full v) ≤ s.budget) :
    printVal v s = (.ok, ⟨s.trace ++ full v, s.budget - steps (full v)⟩) := by
  obtain f | f | f := printVal_follows v s
  · rw [h] at f; cases f.2
  · exact f.2
  · omega

theorem unwind_eq (v : Val) (h : sharedIn v = false) (s : State) : unwind v s = (.exn, emit ((owned v).map Ev.destroy) s) := by
  simp [unwind, destroy, h]

mutual
theorem copyVal_loses : (v : Val) → sharedIn v = false → single v = false → Loses (copyVal v)
  | .leaf _ _, _, h => by simp [single] at h
  | .node k vs, hs, h => by
    simp only [sharedIn, Bool.or_eq_false_iff] at hs
    simp only [single, Bool.or_eq_false_iff] at h
    obtain ⟨c, i, hc⟩ := copyVals_loses (k == .array) vs hs.2 h.2
    refine ⟨c, i, fun s hb => ?_⟩
    simp only [copyVal, hs.1]
    exact hc s hb
theorem copyVals_loses (lose : Bool) : (vs : Vals) → sharedInAll vs = false → singleAll lose vs = false → Loses (copyVals lose vs)
  | .nil, _, h => by simp [singleAll] at h
  | .cons v vs, hs, h => by
    simp only [sharedInAll, Bool.or_eq_false_iff] at hs
    cases h1 : single v with
    | false =>
      obtain ⟨c, i, hc⟩ := copyVal_loses v hs.1 h1
      refine ⟨c, i, fun s hb => ?_⟩
      have := hc s hb
      simp only [copyVals]
      cases hr : copyVal v s with
      | mk o s1 =>
      rw [hr] at this
      cases o with
      | exn => exact this
      | ok => cases this.1
      | ub => cases this.1
    | true =>
    cases h2 : singleAll lose vs with
    | false =>
      obtain ⟨c, i, hc⟩ := copyVals_loses lose vs hs.2 h2
      refine ⟨(owned v).length + c, i, fun s hb => ?_⟩
      have hv := copyVal_ok v hs.1 s (by omega)
      have := hc ⟨s.trace ++ (owned v).map Ev.copy, s.budget - (owned v).length⟩ (by simp only; omega)
      simp only [copyVals, hv]
      cases hr : copyVals lose vs ⟨s.trace ++ (owned v).map Ev.copy, s.budget - (owned v).length⟩ with
      | mk o s2 =>
      rw [hr] at this
      cases o with
      | ok => cases this.1
      | ub => cases this.1
      | exn =>
        have t := this.2
        simp only [made_append, gone_append, made_copy, gone_copy] at t
        cases lose with
        | true => exact ⟨rfl, by simp only [if_true]; omega⟩
        | false =>
          simp only [Bool.false_eq_true, if_false, unwind_eq v hs.1, emit, made_append, gone_append, made_destroy, gone_destroy]
          exact ⟨trivial, by omega⟩
    | true =>
      simp only [singleAll, h1, h2, Bool.and_self, Bool.true_and, Bool.or_eq_false_iff, Bool.not_eq_false'] at h
      obtain ⟨⟨rfl, ho⟩, ha⟩ := h
      cases hov : owned v with
      | nil => rw [hov] at ho; cases ho
      | cons i rest =>
      have hl : 0 < (ownedAll vs).length := by
        cases he : ownedAll vs with
        | nil => rw [he] at ha; cases ha
        | cons => simp
      refine ⟨(owned v).length, i, fun s hb => ?_⟩
      have hv := copyVal_ok v hs.1 s (by omega)
      simp only [copyVals, hv]
      obtain g | g | g := copyVals_follows true vs ⟨s.trace ++ (owned v).map Ev.copy, s.budget - (owned v).length⟩
      · rw [hs.2] at g; cases g.2
      · have := g.1; rw [steps_copy] at this; simp only at this; omega
      obtain ⟨g1, g2, D, L, g3, g4, -⟩ := g
      cases hr : copyVals true vs ⟨s.trace ++ (owned v).map Ev.copy, s.budget - (owned v).length⟩ with
      | mk o s2 =>
      rw [hr] at g2 g3
      cases g2
      refine ⟨rfl, ?_⟩
      simp only [if_true]
      simp only at g3 g4
      rw [g3]
      simp only [made_append, gone_append, made_copy, gone_copy, made_destroy, gone_destroy]
      have := g4 i
      have hi : 0 < (owned v).count i := by rw [hov]; simp
      omega
end

mutual
theorem printVal_loses : (v : Val) → clash v = false → tidy v = false → Loses (printVal v)
  | .leaf _ _, _, h => by simp [tidy] at h
  | .node k vs, hs, h => by
    simp only [clash] at hs
    simp only [tidy] at h
    obtain ⟨c, i, hc⟩ := printItems_loses k true vs hs h
    exact ⟨c, i, fun s hb => by simp only [printVal]; exact hc s hb⟩
theorem printItems_loses (k : Kind) (first : Bool) : (vs : Vals) → clashItems k vs = false → tidyItems k vs = false →
    Loses (printItems k first vs)
  | .nil, _, h => by simp [tidyItems] at h
  | .cons v vs, hs, h => by
    simp only [clashItems, Bool.or_eq_false_iff] at hs
    by_cases hk : k.copies = true
    · have hsv : sharedIn v = false := by simpa [hk] using hs.1.1
      cases h1 : single v with
      | false =>
        obtain ⟨c, i, hc⟩ := copyVal_loses v hsv h1
        refine ⟨c, i, fun s hb => ?_⟩
        have := hc s hb
        simp only [printItems, if_pos hk]
        cases hr : copyVal v s with
        | mk o s1 =>
        rw [hr] at this
        cases o with
        | exn => exact this
        | ok => cases this.1
        | ub => cases this.1
      | true =>
      cases h2 : tidy v with
      | false =>
        obtain ⟨c, i, hc⟩ := printVal_loses v hs.1.2 h2
        refine ⟨(owned v).length + c, i, fun s hb => ?_⟩
        have hv := copyVal_ok v hsv s (by omega)
        have := hc (emit [.text (if first then k.opening else k.separator)]
          ⟨s.trace ++ (owned v).map Ev.copy, s.budget - (owned v).length⟩) (by simp only [emit]; omega)
        simp only [printItems, if_pos hk, hv]
        cases hr : printVal v (emit [.text (if first then k.opening else k.separator)]
          ⟨s.trace ++ (owned v).map Ev.copy, s.budget - (owned v).length⟩) with
        | mk o s2 =>
        rw [hr] at this
        cases o with
        | ok => cases this.1
        | ub => cases this.1
        | exn =>
          have t := this.2
          have e1 : ∀ x, made [Ev.text x] i = 0 := fun _ => rfl
          have e2 : ∀ x, gone [Ev.text x] i = 0 := fun _ => rfl
          simp only [emit, made_append, gone_append, made_copy, gone_copy, e1, e2] at t
          simp only [unwind_eq v hsv, emit, made_append, gone_append, made_destroy, gone_destroy]
          exact ⟨trivial, by omega⟩
      | true =>
        have h3 : tidyItems k vs = false := by simpa [tidyItems, h1, h2] using h
        obtain ⟨c, i, hc⟩ := printItems_loses k false vs hs.2 h3
        refine ⟨(owned v).length + (steps (full v) + c), i, fun s hb => ?_⟩
        have hv := copyVal_ok v hsv s (by omega)
        have hp := printVal_done v hs.1.2 (emit [.text (if first then k.opening else k.separator)]
          ⟨s.trace ++ (owned v).map Ev.copy, s.budget - (owned v).length⟩) (by simp only [emit]; omega)
        simp only [printItems, if_pos hk, hv, hp, destroy, hsv, Bool.false_eq_true, if_false]
        have := hc (emit ((owned v).map Ev.destroy) ⟨(emit [.text (if first then k.opening else k.separator)]
          ⟨s.trace ++ (owned v).map Ev.copy, s.budget - (owned v).length⟩).trace ++ full v, (emit [.text (if first then k.opening else
          k.separator)] ⟨s.trace ++ (owned v).map Ev.copy, s.budget - (owned v).length⟩).budget - steps (full v)⟩)
          (by simp only [emit]; omega)
        refine ⟨this.1, ?_⟩
        have t := this.2
        have e1 : ∀ x, made [Ev.text x] i = 0 := fun _ => rfl
        have e2 : ∀ x, gone [Ev.text x] i = 0 := fun _ => rfl
        have hb := balanced_full v i
        generalize printItems k false vs _ = r at t ⊢
        simp only [emit, made_append, gone_append, made_copy, gone_copy, made_destroy, gone_destroy, e1, e2] at t
        omega
    · have hk' : k.copies = false := by simpa using hk
      cases h2 : tidy v with
      | false =>
        obtain ⟨c, i, hc⟩ := printVal_loses v hs.1.2 h2
        refine ⟨c, i, fun s hb => ?_⟩
        have := hc (emit [.text (if first then k.opening else k.separator)] s) hb
        simp only [printItems, if_neg hk]
        cases hr : printVal v (emit [.text (if first then k.opening else k.separator)] s) with
        | mk o s2 =>
        rw [hr] at this
        cases o with
        | ok => cases this.1
        | ub => cases this.1
        | exn =>
          have t := this.2
          have e1 : ∀ x, made [Ev.text x] i = 0 := fun _ => rfl
          have e2 : ∀ x, gone [Ev.text x] i = 0 := fun _ => rfl
          simp only [emit, made_append, gone_append, e1, e2] at t
          exact ⟨rfl, by simp only; omega⟩
      | true =>
        have h3 : tidyItems k vs = false := by simpa [tidyItems, hk', h2] using h
        obtain ⟨c, i, hc⟩ := printItems_loses k false vs hs.2 h3
        refine ⟨steps (full v) + c, i, fun s hb => ?_⟩
        have hp := printVal_done v hs.1.2 (emit [.text (if first then k.opening else k.separator)] s) (by simp only [emit]; omega)
        simp only [printItems, if_neg hk, hp]
        have := hc ⟨(emit [.text (if first then k.opening else k.separator)] s).trace ++ full v,
          (emit [.text (if first then k.opening else k.separator)] s).budget - steps (full v)⟩ (by simp only [emit]; omega)
        refine ⟨this.1, ?_⟩
        have t := this.2
        have e1 : ∀ x, made [Ev.text x] i = 0 := fun _ => rfl
        have e2 : ∀ x, gone [Ev.text x] i = 0 := fun _ => rfl
        have hb := balanced_full v i
        generalize printItems k false vs _ = r at t ⊢
        simp only [emit, made_append, gone_append, e1, e2] at t
        omega
end

/-! ## Theorems -/

/-- The run of `os << v`, in which the copy or item number `b` throws. -/
def run (v : Val) (b : Nat) : R × State := printVal v ⟨[], b⟩

theorem run_cases (v : Val) (b : Nat) :
    ((run v b).1 = .ub ∧ clash v = true) ∨
    (steps (full v) ≤ b ∧ (run v b).1 = .ok ∧ (run v b).2.trace = full v) ∨
    (b < steps (full v) ∧ (run v b).1 = .exn ∧ ∃ D L : List Nat, (run v b).2.trace = cut b (full v) ++ D.map Ev.destroy ∧
      (∀ i, made (cut b (full v)) i = gone (cut b (full v)) i + D.count i + L.count i) ∧ (tidy v = true → L = [])) := by
  obtain h | h | h := printVal_follows v ⟨[], b⟩
  · exact .inl h
  · exact .inr (.inl ⟨h.1, by rw [run, h.2], by rw [run, h.2]; rfl⟩)
  · exact .inr (.inr h)

/-- Printing ends well just when no `SharedArray` is copied and the copy or item that throws is not reached: there are as many copies as
the ways to the elements have containers printed with copies, and as many items as there are elements. -/
theorem C145_ok_partial (v : Val) (b : Nat) :
    (run v b).1 = .ok ↔ clash v = false ∧ ((paths v).map weight).sum + (paths v).length ≤ b := by
  constructor
  · intro h
    have hc := printVal_ok v _ h
    have e : steps (full v) = ((paths v).map weight).sum + (paths v).length := by rw [steps_full, copies_full v hc]
    obtain c | c | c := run_cases v b
    · rw [h] at c; cases c.1
    · exact ⟨hc, by omega⟩
    · rw [h] at c; cases c.2.1
  · intro ⟨hc, h⟩
    have e : steps (full v) = ((paths v).map weight).sum + (paths v).length := by rw [steps_full, copies_full v hc]
    obtain c | c | c := run_cases v b
    · rw [hc] at c; cases c.2
    · exact c.2.1
    · omega

/-- It is defined, wherever something throws, when no `SharedArray` is copied; otherwise it is undefined if nothing throws. -/
theorem C145_defined_partial (v : Val) : (∀ b, (run v b).1 ≠ .ub) ↔ clash v = false := by
  constructor
  · intro h
    obtain c | c | c := run_cases v (steps (full v))
    · exact absurd c.1 (h _)
    · exact printVal_ok v _ c.2.1
    · omega
  · intro h b hb
    obtain c | c | c := run_cases v b
    · rw [h] at c; cases c.2
    · rw [hb] at c; cases c.2.1
    · rw [hb] at c; cases c.2.1

/-- When nothing throws, the text is written. -/
theorem C145_text (v : Val) (b : Nat) (h : (run v b).1 = .ok) : output (run v b).2.trace = text v := by
  obtain c | c | c := run_cases v b
  · rw [h] at c; cases c.1
  · rw [c.2.2, output_full]
  · rw [h] at c; cases c.2.1

/-- When nothing throws, the copies are counted by the ways to the elements. -/
theorem C145_count (v : Val) (b : Nat) (h : (run v b).1 = .ok) : copies (run v b).2.trace = ((paths v).map weight).sum := by
  have hc := printVal_ok v _ h
  obtain c | c | c := run_cases v b
  · rw [h] at c; cases c.1
  · rw [c.2.2, copies_full v hc]
  · rw [h] at c; cases c.2.1

/-- When nothing throws, every copy is destroyed. -/
theorem C145_destroyed (v : Val) (b i : Nat) (h : (run v b).1 = .ok) : made (run v b).2.trace i = gone (run v b).2.trace i := by
  obtain c | c | c := run_cases v b
  · rw [h] at c; cases c.1
  · rw [c.2.2]; exact balanced_full v i
  · rw [h] at c; cases c.2.1

/-- Every copy is destroyed, whatever throws, just when no `Array` of two or more elements is copied. -/
theorem C145_thrown_partial (v : Val) (hd : clash v = false) :
    (∀ b i, made (run v b).2.trace i = gone (run v b).2.trace i) ↔ tidy v = true := by
  constructor
  · intro h
    cases ht : tidy v with
    | true => rfl
    | false =>
      obtain ⟨c, i, hc⟩ := printVal_loses v hd ht
      have h1 := (hc ⟨[], c⟩ rfl).2
      have h2 := h c i
      simp only [run] at h2
      have e1 : made [] i = 0 := rfl
      have e2 : gone [] i = 0 := rfl
      simp only [e1, e2] at h1
      omega
  · intro ht b i
    obtain c | c | c := run_cases v b
    · rw [hd] at c; cases c.2
    · rw [c.2.2]; exact balanced_full v i
    · obtain ⟨-, -, D, L, h3, h4, h5⟩ := c
      have := h4 i
      rw [h5 ht] at this
      rw [h3, made_append, gone_append, made_destroy, gone_destroy, this]
      simp

/-- No copy is destroyed before it is made, or twice. -/
theorem C145_safe (v : Val) (b : Nat) (hd : (run v b).1 ≠ .ub) : Safe (run v b).2.trace := by
  obtain c | c | c := run_cases v b
  · exact absurd c.1 hd
  · rw [c.2.2]; exact safe_full v
  · obtain ⟨-, -, D, L, h3, h4, -⟩ := c
    rw [h3]
    exact ((safe_full v).prefix (cut_prefix _ _)).destroy D (fun i => by have := h4 i; omega)

/-- When something throws, the history up to there is the one of a run where nothing throws, with the next copy or item missing, and only
destructors run afterwards; what is on the stream is a beginning of the text. -/
theorem C145_prefix (v : Val) (b c : Nat) (h : (run v b).1 = .exn) (hc : (run v c).1 = .ok) :
    ∃ (l t : List Ev) (e : Ev) (D : List Nat), (run v c).2.trace = l ++ e :: t ∧ e.isStep = true ∧ steps l = b ∧
      (run v b).2.trace = l ++ D.map Ev.destroy ∧ output (run v b).2.trace <+: text v := by
  obtain f | f | f := run_cases v c
  · rw [hc] at f; cases f.1
  rotate_left
  · rw [hc] at f; cases f.2.1
  obtain g | g | g := run_cases v b
  · rw [h] at g; cases g.1
  · rw [h] at g; cases g.2.1
  obtain ⟨g1, -, D, L, g3, -⟩ := g
  obtain ⟨k1, e, t, k2, k3⟩ := cut_steps (full v) b g1
  refine ⟨cut b (full v), t, e, D, by rw [f.2.2]; exact k3, k2, k1, g3, ?_⟩
  rw [g3, output_append, output_destroy, List.append_nil, ← output_full v]
  refine ⟨output (e :: t), ?_⟩
  rw [← output_append, ← k3]

theorem sum_zero (l : List Nat) : l.sum = 0 ↔ ∀ x ∈ l, x = 0 := by
  induction l with
  | nil => simp
  | cons a l ih => simp [ih]

/-- Printing makes no copies just when on no way to an element there is a container that is printed with copies. -/
theorem C145_none_partial (v : Val) (b : Nat) (h : (run v b).1 = .ok) :
    copies (run v b).2.trace = 0 ↔ ∀ p ∈ paths v, ∀ k ∈ p, k = .list ∨ k = .pair ∨ k = .tuple ∨ k = .entry := by
  have hk : ∀ k : Kind, ¬ k.copies = true ↔ k = .list ∨ k = .pair ∨ k = .tuple ∨ k = .entry := by
    intro k; cases k <;> simp [Kind.copies]
  rw [C145_count v b h, sum_zero]
  constructor
  · intro hh p hp k hkp
    have := hh _ (List.mem_map.2 ⟨p, hp, rfl⟩)
    exact (hk k).1 (List.countP_eq_zero.1 this k hkp)
  · intro hh x hx
    obtain ⟨p, hp, rfl⟩ := List.mem_map.1 hx
    exact List.countP_eq_zero.2 (fun k hkp => (hk k).2 (hh p hp k hkp))

/-- In nested arrays, vectors, sets every element is copied as often as it is deep. -/
theorem C145_nested (v : Val) (b : Nat) (h : (run v b).1 = .ok)
    (hv : ∀ p ∈ paths v, ∀ k ∈ p, k = .array ∨ k = .vector ∨ k = .set) :
    copies (run v b).2.trace = ((paths v).map List.length).sum := by
  rw [C145_count v b h]
  congr 1
  refine List.map_congr_left (fun p hp => List.countP_eq_length.2 (fun k hk => ?_))
  obtain rfl | rfl | rfl := hv p hp k hk <;> rfl

/-! Runs. -/

def two : Val := .node .vector (.cons (.node .vector (.cons (.leaf 0 ['a']) (.cons (.leaf 1 ['b']) .nil))) (.cons (.node .vector .nil) .nil))

/-- a vector of arrays -/
def va : Val := .node .vector (.cons (.node .array (.cons (.leaf 0 ['a']) (.cons (.leaf 1 ['b']) .nil))) .nil)

/-- a vector of shared arrays -/
def vs : Val := .node .vector (.cons (.node .shared (.cons (.leaf 0 ['a']) .nil)) .nil)

/-- Printing is not free of copies, and a copy that throws leaves a part of the text on the stream. -/
theorem C145_refuted : ∃ v : Val, (∃ b, (run v b).1 = .ok ∧ copies (run v b).2.trace = 4) ∧
    ∃ b, (run v b).1 = .exn ∧ output (run v b).2.trace = ['[', '[', 'a'] ∧ copies (run v b).2.trace = 3 :=
  ⟨two, ⟨6, by decide +kernel⟩, 4, by decide +kernel⟩

/-- A copy of an `Array` that throws loses elements. -/
theorem C145_lost_refuted : ∃ v b, (run v b).1 = .exn ∧ made (run v b).2.trace 0 = 1 ∧ gone (run v b).2.trace 0 = 0 :=
  ⟨va, 1, by decide +kernel⟩

/-- A vector of `SharedArray`s cannot be printed. -/
theorem C145_shared_refuted : ∃ v, ∀ b, (run v b).1 ≠ .ok :=
  ⟨vs, fun b h => by have := ((C145_ok_partial vs b).1 h).1; revert this; decide +kernel⟩

end Helper.Seq.Copies
