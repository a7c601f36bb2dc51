import Verif.ListC.Model
set_option linter.unusedSectionVars false
/-!
# Properties C43 and C44: lists
-/
namespace Helper.ListC

variable {α : Type u} {β : Type v} {γ : Type w}

/-! ## C43 -/

theorem appendLoop_other (t : List α) (ht : t.length < 2 ^ 32) : ∀ (fuel i : Nat) (cur : List α),
    i ≤ t.length → t.length - i < fuel → appendLoop (.other t) fuel i cur = some (.ok (cur ++ t.drop i)) := by
  intro fuel
  induction fuel with
  | zero => intro i cur _ h; omega
  | succ fuel ih =>
    intro i cur hi h
    rw [appendLoop]
    rw [show (Arg.other t).now cur = t from rfl]
    by_cases hl : i = t.length
    · rw [if_neg (by simpa using hl), List.drop_of_length_le (by omega), List.append_nil]
    · have hl' : i < t.length := by omega
      rw [if_pos hl, List.getElem?_eq_getElem hl']
      simp only
      rw [Nat.mod_eq_of_lt (by omega), ih (i + 1) _ (by omega) (by omega), List.drop_eq_getElem_cons hl', List.append_assoc]
      rfl

theorem appendLoop_long (t : List α) (ht : 2 ^ 32 ≤ t.length) : ∀ (fuel i : Nat) (cur : List α),
    i < 2 ^ 32 → appendLoop (.other t) fuel i cur = none := by
  intro fuel
  induction fuel with
  | zero => intro i cur _; rfl
  | succ fuel ih =>
    intro i cur hi
    rw [appendLoop]
    rw [show (Arg.other t).now cur = t from rfl]
    rw [if_pos (by omega), List.getElem?_eq_getElem (by omega)]
    exact ih _ _ (Nat.mod_lt _ (by decide))

theorem appendLoop_self : ∀ (fuel i : Nat) (cur : List α), i < cur.length →
    appendLoop .self fuel i cur = none := by
  intro fuel
  induction fuel with
  | zero => intro i cur _; rfl
  | succ fuel ih =>
    intro i cur hi
    rw [appendLoop]
    rw [show Arg.self.now cur = cur from rfl]
    rw [if_pos (by omega), List.getElem?_eq_getElem hi]
    refine ih _ _ ?_
    have := Nat.mod_le (i + 1) (2 ^ 32)
    simp only [List.length_append, List.length_singleton]
    omega

/-- C43: appending one element. -/
theorem C43_appendElem (l : List α) (t : α) : append l t = l ++ [t] ∧ catenateElem l t = l ++ [t] := ⟨rfl, rfl⟩

/-- C43: `catenate` gives the concatenation, for all lists. -/
theorem C43_catenate (l1 l2 : List α) : catenate l1 l2 = l1 ++ l2 := by
  have : ∀ (l2 r : List α), catenateLoop l2 r = r ++ l2 := by
    intro l2
    induction l2 with
    | nil => intro r; simp [catenateLoop]
    | cons x l2 ih => intro r; rw [catenateLoop, ih]; simp [append]
  exact this l2 l1

/-- C43 for `append(vector)` and `concatenate`, as far as it holds: another list of fewer than 2^32
elements. Missing for the full claim: the cases of `C43_diverges_refuted`. -/
theorem C43_append_partial (l t : List α) (ht : t.length < 2 ^ 32) (fuel : Nat) (hf : t.length < fuel) :
    appendList fuel l (.other t) = some (.ok (l ++ t)) ∧ concatenate fuel l (.other t) = some (.ok (l ++ t)) := by
  have := appendLoop_other t ht fuel 0 l (by omega) (by omega)
  exact ⟨this, this⟩

/-- C43 is false: `append(vector)` and `concatenate` do not terminate for a list of 2^32 or more elements,
nor for a non-empty list appended to itself. -/
theorem C43_diverges_refuted (l : List α) :
    (∀ t : List α, 2 ^ 32 ≤ t.length → ∀ fuel, appendList fuel l (.other t) = none ∧ concatenate fuel l (.other t) = none) ∧
    (l ≠ [] → ∀ fuel, appendList fuel l .self = none ∧ concatenate fuel l .self = none) := by
  refine ⟨fun t ht fuel => ?_, fun hl fuel => ?_⟩
  · have := appendLoop_long t ht fuel 0 l (by decide)
    exact ⟨this, this⟩
  · have := appendLoop_self fuel 0 l (List.length_pos_iff.2 hl)
    exact ⟨this, this⟩

/-- C43: appending an empty list to itself is fine, so that the two partial theorems and the refutation
cover every call. -/
theorem C43_selfEmpty (fuel : Nat) (hf : 0 < fuel) :
    appendList fuel ([] : List α) .self = some (.ok []) ∧ concatenate fuel ([] : List α) .self = some (.ok []) := by
  obtain ⟨k, rfl⟩ : ∃ k, fuel = k + 1 := ⟨fuel - 1, by omega⟩
  exact ⟨rfl, rfl⟩

example : appendList 4 [1, 2] (.other [3, 4, 5]) = some (.ok [1, 2, 3, 4, 5]) ∧ catenate [1, 2] [1, 2] = [1, 2, 1, 2] := by
  decide +kernel
example : 2 ^ 32 ≤ (List.replicate (2 ^ 32) 'x').length := by rw [List.length_replicate]; exact Nat.le_refl _

/-- Constructors and `make_list`: one element, or the converted elements in order. -/
theorem C43_construct (t : α) (f : α → β) (l : List α) : single t = [t] ∧ (convert f l).length = l.length ∧
    ∀ i : Nat, (convert f l)[i]? = l[i]?.map f := ⟨rfl, by simp [convert], by simp [convert]⟩

/-! ## C44 -/

/-- The calls `f(x)` for the elements of a list in order: from state `s` all of them return, with results
`ys`, and end in state `s'`. -/
inductive Calls {σ : Type} (f : Fn σ α β) : List α → σ → List β → σ → Prop
  | nil {s} : Calls f [] s [] s
  | cons {x l s y s1 ys s2} : f x s = (.ok y, s1) → Calls f l s1 ys s2 → Calls f (x :: l) s (y :: ys) s2

/-- An element's call does not return; the earlier ones have returned and the later ones are not made. -/
inductive Fails {σ : Type} (f : Fn σ α β) : List α → σ → Res (List β) → σ → Prop
  | exn {l x l' s ys s1 e s2} : Calls f l s ys s1 → f x s1 = (.exn e, s2) → Fails f (l ++ x :: l') s (.exn e) s2
  | ub {l x l' s ys s1 k s2} : Calls f l s ys s1 → f x s1 = (.ub k, s2) → Fails f (l ++ x :: l') s (.ub k) s2
  | abort {l x l' s ys s1 s2} : Calls f l s ys s1 → f x s1 = (.abort, s2) → Fails f (l ++ x :: l') s .abort s2

theorem Fails.cons {σ : Type} {f : Fn σ α β} {x : α} {l : List α} {s s1 s2 : σ} {y : β} {r : Res (List β)}
    (h : f x s = (.ok y, s1)) (hf : Fails f l s1 r s2) : Fails f (x :: l) s r s2 := by
  cases hf with
  | exn hc he => exact .exn (l := x :: _) (.cons h hc) he
  | ub hc he => exact .ub (l := x :: _) (.cons h hc) he
  | abort hc he => exact .abort (l := x :: _) (.cons h hc) he

theorem applyLoop_spec {σ : Type} (f : Fn σ α β) : ∀ (l : List α) (res : List β) (s : σ),
    (∃ ys s', Calls f l s ys s' ∧ applyLoop f l res s = (.ok (res ++ ys), s')) ∨
    (∃ r s', Fails f l s r s' ∧ applyLoop f l res s = (r, s')) := by
  intro l
  induction l with
  | nil => intro res s; exact Or.inl ⟨[], s, .nil, by simp [applyLoop]⟩
  | cons x l ih =>
    intro res s
    rw [applyLoop]
    match hf : f x s with
    | (.ok y, s1) =>
      simp only
      rcases ih (append res y) s1 with ⟨ys, s2, hc, he⟩ | ⟨r, s2, hc, he⟩
      · exact Or.inl ⟨y :: ys, s2, .cons hf hc, by rw [he]; simp [append]⟩
      · exact Or.inr ⟨r, s2, hc.cons hf, he⟩
    | (.exn e, s1) => exact Or.inr ⟨.exn e, s1, .exn (l := []) .nil hf, rfl⟩
    | (.ub k, s1) => exact Or.inr ⟨.ub k, s1, .ub (l := []) .nil hf, rfl⟩
    | (.abort, s1) => exact Or.inr ⟨.abort, s1, .abort (l := []) .nil hf, rfl⟩

theorem elementwiseLoop_eq {σ : Type} (f : Fn σ α β) (l : List α) : ∀ (n i : Nat) (r : List β) (s : σ),
    i + n = l.length → elementwiseLoop f l n i r s = applyLoop f (l.drop i) r s := by
  intro n
  induction n with
  | zero => intro i r s h; rw [elementwiseLoop, List.drop_of_length_le (by omega)]; rfl
  | succ n ih =>
    intro i r s h
    have hi : i < l.length := by omega
    rw [elementwiseLoop, List.drop_eq_getElem_cons hi, applyLoop, List.getElem?_eq_getElem hi]
    simp only
    match f l[i] s with
    | (.ok y, s1) => exact ih (i + 1) _ _ (by omega)
    | (.exn e, s1) => rfl
    | (.ub k, s1) => rfl
    | (.abort, s1) => rfl

theorem calls_length {σ : Type} {f : Fn σ α β} {l : List α} {s s' : σ} {ys : List β} (h : Calls f l s ys s') :
    ys.length = l.length := by
  induction h with
  | nil => rfl
  | cons _ _ ih => simp [ih]

/-- C44: `apply(f,l)` and `elementwise(f,l)` make the calls `f(x)` for the elements in order, once each;
if all return, the result lists their results in order, otherwise the first failure is the outcome. -/
theorem C44_apply_partial {σ : Type} (f : Fn σ α β) (l : List α) (s : σ) :
    ((∃ ys s', Calls f l s ys s' ∧ apply f l s = (.ok ys, s')) ∨ (∃ r s', Fails f l s r s' ∧ apply f l s = (r, s'))) ∧
    elementwise f l s = apply f l s := by
  refine ⟨?_, ?_⟩
  · simpa [apply] using applyLoop_spec f l [] s
  · rw [elementwise, elementwiseLoop_eq f l _ _ _ _ (by omega)]; rfl

/-- C44 for a function without side effects. -/
theorem C44_pure (g : α → β) (l : List α) :
    apply (σ := Unit) (fun x s => (.ok (g x), s)) l () = (.ok (l.map g), ()) := by
  have : ∀ (l : List α) (r : List β), applyLoop (σ := Unit) (fun x s => (.ok (g x), s)) l r () = (.ok (r ++ l.map g), ()) := by
    intro l
    induction l with
    | nil => intro r; simp [applyLoop]
    | cons x l ih => intro r; rw [applyLoop]; simp only; rw [ih]; simp [append]
  simpa [apply] using this l []

theorem elementwise2Loop_eq {σ : Type} (f : α → Fn σ β γ) (l1 : List α) (l2 : List β) (hl : l1.length = l2.length) :
    ∀ (n i : Nat) (r : List γ) (s : σ), i + n = l1.length →
    elementwise2Loop f l1 l2 n i r s = applyLoop (fun (p : α × β) => f p.1 p.2) ((l1.zip l2).drop i) r s := by
  intro n
  induction n with
  | zero => intro i r s h; rw [elementwise2Loop, List.drop_of_length_le (by simp; omega)]; rfl
  | succ n ih =>
    intro i r s h
    have h1 : i < l1.length := by omega
    have h2 : i < l2.length := by omega
    have hz : i < (l1.zip l2).length := by simp; omega
    rw [elementwise2Loop, List.drop_eq_getElem_cons hz, applyLoop, List.getElem?_eq_getElem h1, List.getElem?_eq_getElem h2]
    simp only [List.getElem_zip]
    match f l1[i] l2[i] s with
    | (.ok y, s1) => exact ih (i + 1) _ _ (by omega)
    | (.exn e, s1) => rfl
    | (.ub k, s1) => rfl
    | (.abort, s1) => rfl

/-- C44: the two-list form for lists of equal sizes makes the calls `f(l1[i],l2[i])` in order. -/
theorem C44_elementwise2 {σ : Type} (ndebug : Bool) (f : α → Fn σ β γ) (l1 : List α) (l2 : List β) (s : σ) (hl : l1.length = l2.length) :
    elementwise2 ndebug f l1 l2 s = apply (fun (p : α × β) => f p.1 p.2) (l1.zip l2) s := by
  rw [elementwise2, if_neg (by simp [hl]), elementwise2Loop_eq f l1 l2 hl _ _ _ _ (by omega)]
  rfl

/-- C44: lists of different sizes are rejected by the assertion before any call. -/
theorem C44_sizes {σ : Type} (f : α → Fn σ β γ) (l1 : List α) (l2 : List β) (s : σ) (hl : l1.length ≠ l2.length) :
    elementwise2 false f l1 l2 s = (.abort, s) := by
  simp [elementwise2, hl]

/-- Without the assertion (`NDEBUG`) a longer first list is read past the end of the second one, if the
calls before return. -/
theorem C44_ndebug (g : α → β → γ) (l1 : List α) (l2 : List β) (hl : l2.length < l1.length) :
    elementwise2 true (σ := Unit) (fun x y s => (.ok (g x y), s)) l1 l2 () = (.ub .outOfBounds, ()) := by
  have : ∀ (n i : Nat) (r : List γ), i ≤ l2.length → i + n = l1.length →
      elementwise2Loop (σ := Unit) (fun x y s => (.ok (g x y), s)) l1 l2 n i r () = (.ub .outOfBounds, ()) := by
    intro n
    induction n with
    | zero => intro i r h1 h2; omega
    | succ n ih =>
      intro i r h1 h2
      rw [elementwise2Loop]
      by_cases h3 : i < l2.length
      · rw [List.getElem?_eq_getElem (by omega), List.getElem?_eq_getElem h3]
        exact ih (i + 1) _ (by omega) (by omega)
      · rw [List.getElem?_eq_none (l := l2) (by omega), List.getElem?_eq_getElem (by omega)]
  simpa [elementwise2] using this l1.length 0 [] (by omega) (by omega)

/-- A stateful function: numbers its calls; throws on 0. -/
example : apply (σ := Nat) (fun x s => if x = 0 then (.exn (.user 0), s + 1) else (.ok (x, s), s + 1)) [7, 8, 9] 0
      = (.ok [(7, 0), (8, 1), (9, 2)], 3) ∧
    apply (σ := Nat) (fun x s => if x = 0 then (.exn (.user 0), s + 1) else (.ok (x, s), s + 1)) [7, 0, 9] 0
      = (.exn (.user 0), 2) := by decide
example : elementwise2 false (σ := Unit) (fun x y s => (.ok (x + y), s)) [1, 2] [10, 20] () = (.ok [11, 22], ()) := by decide

end Helper.ListC
