import Verif.MText.Model
/-!
# The grammar of infix operators
-/
set_option linter.unusedSectionVars false
namespace Helper.MText

/-- The grammar of C++: `Gram k t` if `t` can be derived from the expressions of level `k`. An operator that groups from left
to right has a left operand of its own level and a right one of the next level, the others the other way round. -/
inductive Gram : Nat → Tree → Prop where
  | leaf (k : Nat) (v : Val) : Gram k (.leaf v)
  | left {k : Nat} {o : Op} {l r : Tree} (ho : o.right = false) (hk : k ≤ o.prec) (hl : Gram o.prec l) (hr : Gram (o.prec + 1) r) :
      Gram k (.node o l r)
  | right {k : Nat} {o : Op} {l r : Tree} (ho : o.right = true) (hk : k ≤ o.prec) (hl : Gram (o.prec + 1) l) (hr : Gram o.prec r) :
      Gram k (.node o l r)

/-- The text of a tree, without parentheses. -/
def Tree.flat : Tree → Flat
  | .leaf v => .one v
  | .node o l r => l.flat.glue o r.flat

/-- All operators of the text are of level `k` or tighter. -/
def Flat.Min (k : Nat) (f : Flat) : Prop := ∀ p ∈ f.tail, k ≤ p.1.prec

instance (k : Nat) (f : Flat) : Decidable (f.Min k) := inferInstanceAs (Decidable (∀ p ∈ f.tail, k ≤ p.1.prec))

theorem Flat.glue_tail (a b : Flat) (o : Op) : (a.glue o b).tail = a.tail ++ (o, b.head) :: b.tail := rfl

theorem Flat.glue_assoc (a b c : Flat) (o o' : Op) : (a.glue o b).glue o' c = a.glue o (b.glue o' c) := by
  simp [Flat.glue]

theorem Flat.min_glue {k : Nat} {a b : Flat} {o : Op} : (a.glue o b).Min k ↔ a.Min k ∧ k ≤ o.prec ∧ b.Min k := by
  simp [Flat.Min, Flat.glue_tail, or_imp, forall_and]

theorem Flat.min_one (k : Nat) (v : Val) : (Flat.one v).Min k := by intro p hp; cases hp

theorem Flat.Min.mono {k j : Nat} {f : Flat} (h : f.Min k) (hj : j ≤ k) : f.Min j := fun p hp => Nat.le_trans hj (h p hp)

theorem right_prec {o : Op} : o.right = true ↔ o.prec = 1 := by cases o <;> simp [Op.right, Op.prec]

theorem Gram.mono {k j : Nat} {t : Tree} (h : Gram k t) (hj : j ≤ k) : Gram j t := by
  cases h with
  | leaf => exact .leaf _ _
  | left ho hk hl hr => exact .left ho (by omega) hl hr
  | right ho hk hl hr => exact .right ho (by omega) hl hr

/-- A tree of level `k` has only operators of that level or tighter. -/
theorem Gram.min {k : Nat} {t : Tree} (h : Gram k t) : t.flat.Min k := by
  induction h with
  | leaf => exact Flat.min_one _ _
  | left ho hk hl hr ihl ihr => exact Flat.min_glue.2 ⟨ihl.mono (by omega), hk, ihr.mono (by omega)⟩
  | right ho hk hl hr ihl ihr => exact Flat.min_glue.2 ⟨ihl.mono (by omega), hk, ihr.mono (by omega)⟩

/-- And conversely. -/
theorem Gram.raise {j k : Nat} {t : Tree} (h : Gram j t) (hk : t.flat.Min k) : Gram k t := by
  cases h with
  | leaf => exact .leaf _ _
  | left ho _ hl hr => exact .left ho (Flat.min_glue.1 hk).2.1 hl hr
  | right ho _ hl hr => exact .right ho (Flat.min_glue.1 hk).2.1 hl hr

/-! ## Parsing -/

theorem push_flat (t : Tree) (o : Op) (a : Val) : (t.push o a).flat = t.flat.glue o (.one a) := by
  induction t with
  | leaf v => rfl
  | node p l r _ ihr =>
    simp only [Tree.push]
    split
    · simp only [Tree.flat, ihr, Flat.glue_assoc]
    · rfl

theorem push_gram {k : Nat} {t : Tree} (h : Gram k t) : ∀ {o : Op} (_ : k ≤ o.prec) (a : Val), Gram k (t.push o a) := by
  induction h with
  | leaf k v =>
    intro o ho a
    cases hr : o.right with
    | false => exact .left hr ho (.leaf _ _) (.leaf _ _)
    | true => exact .right hr ho (.leaf _ _) (.leaf _ _)
  | @left k p l r hp hk hl hr _ ihr =>
    intro o ho a
    simp only [Tree.push]
    split
    · rename_i hs
      have : p.prec < o.prec := by
        simp only [Op.steals, Bool.or_eq_true, Bool.and_eq_true, decide_eq_true_eq] at hs
        rcases hs with h | ⟨h, h'⟩
        · exact h
        · rw [right_prec, ← h, ← right_prec, hp] at h'; exact absurd h' (by simp)
      exact .left hp hk hl (ihr this a)
    · rename_i hs
      simp only [Op.steals, Bool.or_eq_true, Bool.and_eq_true, decide_eq_true_eq, not_or, not_and] at hs
      cases hr' : o.right with
      | false => exact .left hr' ho (.left hp (by omega) hl hr) (.leaf _ _)
      | true =>
        have h1 := right_prec.1 hr'
        have h2 : p.prec ≠ 1 := fun h => by rw [← right_prec, hp] at h; cases h
        exact .right hr' ho (.left hp (by have := hs.2; have : p.prec ≠ 0 := by cases p <;> simp [Op.prec]
                                          omega) hl hr) (.leaf _ _)
  | @right k p l r hp hk hl hr _ ihr =>
    intro o ho a
    have hp1 := right_prec.1 hp
    have h0 : o.prec ≠ 0 := by cases o <;> simp [Op.prec]
    simp only [Tree.push]
    split
    · exact .right hp hk hl (ihr (by omega) a)
    · rename_i hs
      exfalso
      apply hs
      simp only [Op.steals, Bool.or_eq_true, Bool.and_eq_true, decide_eq_true_eq]
      by_cases h : p.prec < o.prec
      · exact .inl h
      · exact .inr ⟨by omega, right_prec.2 (by omega)⟩

theorem foldl_flat (l : List (Op × Val)) (t : Tree) :
    (l.foldl (fun t p => t.push p.1 p.2) t).flat = ⟨t.flat.head, t.flat.tail ++ l⟩ := by
  induction l generalizing t with
  | nil => simp
  | cons p l ih => simp [ih, push_flat, Flat.glue, Flat.one]

theorem parse_flat (f : Flat) : f.parse.flat = f := by
  simp [Flat.parse, foldl_flat, Tree.flat, Flat.one]

theorem foldl_gram {k : Nat} (l : List (Op × Val)) (hl : ∀ p ∈ l, k ≤ p.1.prec) {t : Tree} (h : Gram k t) :
    Gram k (l.foldl (fun t p => t.push p.1 p.2) t) := by
  induction l generalizing t with
  | nil => exact h
  | cons p l ih =>
    exact ih (fun q hq => hl q (List.mem_cons_of_mem _ hq)) (push_gram h (hl p List.mem_cons_self) p.2)

theorem parse_gram {k : Nat} {f : Flat} (h : f.Min k) : Gram k f.parse := foldl_gram _ h (.leaf _ _)

theorem foldl_node {o : Op} (l : Tree) (q : List (Op × Val)) (hq : ∀ p ∈ q, p.1.steals o = true) (r : Tree) :
    q.foldl (fun (t : Tree) p => t.push p.1 p.2) (.node o l r) = .node o l (q.foldl (fun t p => t.push p.1 p.2) r) := by
  induction q generalizing r with
  | nil => rfl
  | cons p q ih =>
    simp only [List.foldl_cons, Tree.push, hq p List.mem_cons_self, if_true]
    exact ih (fun x hx => hq x (List.mem_cons_of_mem _ hx)) _

theorem push_root {k : Nat} {l : Tree} {o : Op} (h : Gram k l) (hk : o.prec < k ∨ (o.prec ≤ k ∧ o.right = false)) (a : Val) :
    l.push o a = .node o l (.leaf a) := by
  cases l with
  | leaf v => rfl
  | node p l r =>
    have hp : k ≤ p.prec := (Flat.min_glue.1 h.min).2.1
    have : o.steals p = false := by
      simp only [Op.steals, Bool.or_eq_false_iff, Bool.and_eq_false_imp, decide_eq_false_iff_not, decide_eq_true_eq]
      refine ⟨by omega, fun he => ?_⟩
      rcases hk with h | ⟨_, h⟩
      · omega
      · exact h
    simp [Tree.push, this]

/-- A tree of the grammar is what its text is read as. -/
theorem parse_of_gram {k : Nat} {t : Tree} (h : Gram k t) : t.flat.parse = t := by
  induction h with
  | leaf => rfl
  | @left k o l r ho hk hl hr ihl ihr =>
    simp only [Tree.flat, Flat.parse, Flat.glue, List.foldl_append, List.foldl_cons]
    have e1 : l.flat.tail.foldl (fun t p => t.push p.1 p.2) (.leaf l.flat.head) = l := ihl
    rw [e1, push_root hl (.inr ⟨Nat.le_refl _, ho⟩), foldl_node]
    · exact congrArg _ ihr
    · intro p hp
      have := hr.min p hp
      simp [Op.steals]; omega
  | @right k o l r ho hk hl hr ihl ihr =>
    simp only [Tree.flat, Flat.parse, Flat.glue, List.foldl_append, List.foldl_cons]
    have e1 : l.flat.tail.foldl (fun t p => t.push p.1 p.2) (.leaf l.flat.head) = l := ihl
    rw [e1, push_root hl (.inl (Nat.lt_succ_self _)), foldl_node]
    · exact congrArg _ ihr
    · intro p hp
      have := hr.min p hp
      have h1 := right_prec.1 ho
      simp only [Op.steals, Bool.or_eq_true, Bool.and_eq_true, decide_eq_true_eq]
      by_cases h : o.prec < p.1.prec
      · exact .inl h
      · exact .inr ⟨by omega, right_prec.2 (by omega)⟩

theorem min_zero (f : Flat) : f.Min 0 := fun _ _ => Nat.zero_le _

theorem parse_gram_zero (f : Flat) : Gram 0 f.parse := parse_gram (min_zero f)

/-! ## Texts joined by `<<` -/

theorem parse_glue {o : Op} (ho : o.right = false) {a b : Flat} (ha : a.Min o.prec) (hb : b.Min (o.prec + 1)) :
    (a.glue o b).parse = .node o a.parse b.parse := by
  have h : Gram 0 (.node o a.parse b.parse) := .left ho (Nat.zero_le _) (parse_gram ha) (parse_gram hb)
  have := parse_of_gram h
  rwa [Tree.flat, parse_flat, parse_flat] at this

/-- `p <<` in front of the text of a tree. -/
def attach (p : Tree) : Tree → Tree
  | .leaf v => .node .shl p (.leaf v)
  | .node o l r => if Op.shl.prec < o.prec then .node .shl p (.node o l r) else .node o (attach p l) r

theorem attach_flat (p t : Tree) : (attach p t).flat = p.flat.glue .shl t.flat := by
  induction t with
  | leaf v => rfl
  | node o l r ihl _ =>
    rw [attach]
    split
    · rfl
    · rw [Tree.flat, ihl, Flat.glue_assoc]; rfl

theorem attach_gram {k : Nat} {p t : Tree} (hp : Gram Op.shl.prec p) (ht : Gram k t) (hk : k ≤ Op.shl.prec) :
    Gram k (attach p t) := by
  induction ht with
  | leaf => exact .left rfl hk hp (.leaf _ _)
  | @left k o l r ho hk' hl hr ihl ihr =>
    rw [attach]
    split
    · exact .left rfl hk hp (.left ho (by omega) hl hr)
    · exact .left ho hk' (ihl (by omega)) hr
  | @right k o l r ho hk' hl hr ihl ihr =>
    have h1 := right_prec.1 ho
    rw [attach]
    split
    · exact .left rfl hk hp (.right ho (by omega) hl hr)
    · exact .right ho hk' (ihl (by rw [h1]; decide)) hr

theorem parse_attach {a b : Flat} (ha : a.Min Op.shl.prec) : (a.glue .shl b).parse = attach a.parse b.parse := by
  have h : Gram 0 (attach a.parse b.parse) := attach_gram (parse_gram ha) (parse_gram_zero b) (Nat.zero_le _)
  have := parse_of_gram h
  rwa [attach_flat, parse_flat, parse_flat] at this

end Helper.MText
