import Verif.Iter.Props
/-!
# Loops and searches with facade iterators (iterator.hpp:58-114), property C107

The loops are written with the operators of the facades. `deref` is what the client's `dereference` gives. `std::lower_bound` is that of the standard library for
random access iterators: it uses the difference, `+=` and `++`. Loops get a bound of their number of turns; `abort` means that it was not
enough.
-/
set_option linter.unusedSectionVars false
namespace Helper.Iter

variable {I : Type u} {V : Type v}

/-- iterator.hpp:88, 112 `operator*`. -/
def star (deref : I → Res V) (i : I) : Res V := deref i

/-- What `dereference` gives: a reference to an object (its address), or a value if `Ref` is not a reference. -/
inductive Ref (V : Type v) where
  | lvalue (address : Nat)
  | prvalue (v : V)
deriving DecidableEq, Repr

/-- iterator.hpp:89, 113 `operator->`: the address of the object; `none` is ill-formed. -/
def arrow : Ref V → Option Nat
  | .lvalue a => some a
  | .prvalue _ => none

/-- `for(; i!=e; ++i) use(*i);` with the random access facade: the values used. -/
def each (C : Core I) (deref : I → Res V) (e : I) : Nat → I → Res (List V)
  | 0, i => if ne C i e then .abort else .ok []
  | n + 1, i =>
    if ne C i e then
      (star deref i).bind fun v => (preInc C i).bind fun j => (each C deref e n j).bind fun l => .ok (v :: l)
    else .ok []

/-- The same with the forward facade and `use(*i++)`. -/
def eachPost (C : Core I) (deref : I → Res V) (e : I) : Nat → I → Res (List V)
  | 0, i => if ne C i e then .abort else .ok []
  | n + 1, i =>
    if ne C i e then
      (fwdPostInc C i).bind fun r => (star deref r.1).bind fun v => (eachPost C deref e n r.2).bind fun l => .ok (v :: l)
    else .ok []

/-- `while(e!=b) { --e; use(*e); }` -/
def back (C : Core I) (deref : I → Res V) (b : I) : Nat → I → Res (List V)
  | 0, e => if ne C e b then .abort else .ok []
  | n + 1, e =>
    if ne C e b then
      (preDec C e).bind fun j => (star deref j).bind fun v => (back C deref b n j).bind fun l => .ok (v :: l)
    else .ok []

/-- The loop of `std::lower_bound(first,first+len,x)`; `below v` is `v < x`. -/
def lowerLoop (C : Core I) (deref : I → Res V) (below : V → Bool) : Nat → I → Int → Res I
  | 0, i, len => if len > 0 then .abort else .ok i
  | n + 1, i, len =>
    if len > 0 then
      (plusAssign C i (len / 2)).bind fun m => (star deref m).bind fun v =>
        if below v then (preInc C m).bind fun j => lowerLoop C deref below n j (len - len / 2 - 1)
        else lowerLoop C deref below n i (len / 2)
    else .ok i

/-- `std::lower_bound(b,e,x)` -/
def lowerBound (C : Core I) (deref : I → Res V) (below : V → Bool) (fuel : Nat) (b e : I) : Res I :=
  (diff C e b).bind fun len => lowerLoop C deref below fuel b len

/-! ## Properties -/

variable {C : Core I} {pos : I → Int} {lo hi : Int}

/-- C107: a loop with `!=`, `*` and `++` uses the elements in order and ends after as many turns as there are elements. -/
theorem C107_each (h : OnLine C pos lo hi) (deref : I → Res V) (s : Int → V) (hd : ∀ i, pos i < hi → deref i = .ok (s (pos i))) (e : I) :
    ∀ (n : Nat) (i : I), pos i + n = pos e → ∀ fuel, n ≤ fuel → each C deref e fuel i = .ok ((List.range n).map fun (k : Nat) => s (pos i + k)) := by
  intro n
  induction n with
  | zero =>
    intro i hi' fuel _
    have : ne C i e = false := by
      rw [Bool.eq_false_iff, ne_eq, (C46_compare h i e).2.1]; omega
    cases fuel <;> simp [each, this]
  | succ n ih =>
    intro i hn fuel hf
    obtain ⟨f, rfl⟩ : ∃ f, fuel = f + 1 := ⟨fuel - 1, by omega⟩
    have hne : ne C i e = true := by rw [(C46_compare h i e).2.1]; omega
    have he := h.range e
    obtain ⟨j, hj, hp⟩ := (C46_move h i 0).2.2.1 (by omega)
    rw [each, if_pos hne]
    simp only [star, hd i (by omega), Res.bind, hj, ih j (by omega) f (by omega)]
    rw [List.range_succ_eq_map, List.map_cons, List.map_map]
    congr 2
    · simp
    · apply List.map_congr_left
      intro k _
      simp only [Function.comp_apply, hp]
      congr 1
      omega

/-- C107: the same for `--`, in reverse order. -/
theorem C107_back (h : OnLine C pos lo hi) (deref : I → Res V) (s : Int → V) (hd : ∀ i, pos i < hi → deref i = .ok (s (pos i))) (b : I) :
    ∀ (n : Nat) (e : I), pos b + n = pos e → ∀ fuel, n ≤ fuel →
      back C deref b fuel e = .ok ((List.range n).map fun (k : Nat) => s (pos e - 1 - k)) := by
  intro n
  induction n with
  | zero =>
    intro i hi' fuel _
    have : ne C i b = false := by
      rw [Bool.eq_false_iff, ne_eq, (C46_compare h i b).2.1]; omega
    cases fuel <;> simp [back, this]
  | succ n ih =>
    intro e hn fuel hf
    obtain ⟨f, rfl⟩ : ∃ f, fuel = f + 1 := ⟨fuel - 1, by omega⟩
    have hne : ne C e b = true := by rw [(C46_compare h e b).2.1]; omega
    have he := h.range e
    have hb := h.range b
    obtain ⟨j, hj, hp⟩ := (C46_move h e 0).2.2.2 (by omega)
    rw [back, if_pos hne]
    simp only [star, hd j (by omega), Res.bind, hj, ih j (by omega) f (by omega)]
    rw [List.range_succ_eq_map, List.map_cons, List.map_map]
    congr 2
    · simp [hp]
    · apply List.map_congr_left
      intro k _
      simp only [Function.comp_apply, hp]
      congr 1
      omega

/-- C107: the same for the forward facade and `i++`. -/
theorem C107_forward (C : Core I) (pos : I → Nat) (len : Nat) (hinc : ∀ i, pos i < len → ∃ i', C.increment i = .ok i' ∧ pos i' = pos i + 1)
    (heq : ∀ i j, C.equal i j = decide (pos i = pos j)) (deref : I → Res V) (s : Nat → V) (hd : ∀ i, pos i < len → deref i = .ok (s (pos i)))
    (e : I) (he : pos e ≤ len) :
    ∀ (n : Nat) (i : I), pos i + n = pos e → ∀ fuel, n ≤ fuel → eachPost C deref e fuel i = .ok ((List.range n).map fun k => s (pos i + k)) := by
  intro n
  induction n with
  | zero =>
    intro i hi' fuel _
    have : ne C i e = false := by simp [ne, heq]; omega
    cases fuel <;> simp [eachPost, this]
  | succ n ih =>
    intro i hn fuel hf
    obtain ⟨f, rfl⟩ : ∃ f, fuel = f + 1 := ⟨fuel - 1, by omega⟩
    have hne : ne C i e = true := by simp [ne, heq]; omega
    obtain ⟨j, hj, hp⟩ := hinc i (by omega)
    rw [eachPost, if_pos hne]
    simp only [fwdPostInc, hj, Res.bind, star, hd i (by omega), ih j (by omega) f (by omega)]
    rw [List.range_succ_eq_map, List.map_cons, List.map_map]
    congr 2
    apply List.map_congr_left
    intro k _
    simp only [Function.comp_apply, hp]
    congr 1
    omega

theorem lowerLoop_spec (h : OnLine C pos lo hi) (deref : I → Res V) (s : Int → V) (hd : ∀ i, pos i < hi → deref i = .ok (s (pos i)))
    (below : V → Bool) : ∀ (fuel : Nat) (len : Int) (i : I), 0 ≤ len → pos i + len ≤ hi → len < 2 ^ fuel →
      ∃ j, lowerLoop C deref below fuel i len = .ok j ∧ pos i ≤ pos j ∧ pos j ≤ pos i + len ∧
        (pos i < pos j → below (s (pos j - 1)) = true) ∧ (pos j < pos i + len → below (s (pos j)) = false) := by
  intro fuel
  induction fuel with
  | zero =>
    intro len i h0 _ h2
    simp at h2
    have : len = 0 := by omega
    subst this
    exact ⟨i, rfl, by omega, by omega, fun h => by omega, fun h => by omega⟩
  | succ n ih =>
    intro len i h0 h1 h2
    rw [Int.pow_succ] at h2
    by_cases hl : len > 0
    · rw [lowerLoop, if_pos hl]
      have hr := h.range i
      obtain ⟨m, -, hm, hp⟩ := (C46_move h i (len / 2)).1 (by omega) (by omega)
      simp only [hm, Res.bind, star, hd m (by omega)]
      cases hb : below (s (pos m)) with
      | true =>
        rw [if_pos rfl]
        obtain ⟨j, hj, hjp⟩ := (C46_move h m 0).2.2.1 (by omega)
        obtain ⟨k, hk, a1, a2, a3, a4⟩ := ih (len - len / 2 - 1) j (by omega) (by omega) (by omega)
        refine ⟨k, by simp only [hj]; exact hk, by omega, by omega, fun _ => ?_, fun hlt => a4 (by omega)⟩
        by_cases e : pos j = pos k
        · rw [← e, hjp, show pos m + 1 - 1 = pos m by omega]; exact hb
        · exact a3 (by omega)
      | false =>
        rw [if_neg (by decide)]
        obtain ⟨k, hk, a1, a2, a3, a4⟩ := ih (len / 2) i (by omega) (by omega) (by omega)
        refine ⟨k, hk, by omega, by omega, a3, fun _ => ?_⟩
        by_cases e : pos k = pos i + len / 2
        · rw [show pos k = pos m by omega]; exact hb
        · exact a4 (by omega)
    · have : len = 0 := by omega
      subst this
      exact ⟨i, rfl, by omega, by omega, fun h => by omega, fun h => by omega⟩

/-- C107: `std::lower_bound` finds the border between the elements below and the others, if all elements below come first; its number of turns is at most the number
of binary digits of the length. -/
theorem C107_lowerBound (h : OnLine C pos lo hi) (deref : I → Res V) (s : Int → V) (hd : ∀ i, pos i < hi → deref i = .ok (s (pos i)))
    (below : V → Bool) (b e : I) (hbe : pos b ≤ pos e) (hs : ∀ p q, pos b ≤ p → p ≤ q → q < pos e → below (s q) = true → below (s p) = true) (fuel : Nat)
    (hf : pos e - pos b < 2 ^ fuel) :
    ∃ j, lowerBound C deref below fuel b e = .ok j ∧ pos b ≤ pos j ∧ pos j ≤ pos e ∧
      (∀ p, pos b ≤ p → p < pos j → below (s p) = true) ∧ (∀ p, pos j ≤ p → p < pos e → below (s p) = false) := by
  have he := h.range e
  obtain ⟨j, hj, a1, a2, a3, a4⟩ := lowerLoop_spec h deref s hd below fuel (pos e - pos b) b (by omega) (by omega) hf
  refine ⟨j, ?_, a1, by omega, fun p h1 h2 => hs p (pos j - 1) h1 (by omega) (by omega) (a3 (by omega)), fun p h1 h2 => ?_⟩
  · simp only [lowerBound, C46_diff h, Res.bind]; exact hj
  · have := a4 (by omega)
    cases hp : below (s p) with
    | false => rfl
    | true => rw [hs _ p a1 h1 h2 hp] at this; cases this

/-- C107: `->` gives the address of the object that `*` refers to; it does not compile if `*` gives a value. -/
theorem C107_arrow (r : Ref V) : (∀ a, arrow r = some a ↔ r = .lvalue a) ∧ (arrow r = none ↔ ∃ v, r = .prvalue v) := by
  cases r <;> simp [arrow]

/-! ## The requirements of the standard -/

/-- Expressions with iterators `a`, `b` and a number `n`. -/
inductive Expr where
  | star | arrow | eq | ne | preInc | postInc | preDec | postDec | plusAssign | minusAssign | plus | numberPlus | minus | diff | subscript | lt | gt | le | ge
deriving DecidableEq, Repr

/-- [forward.iterators], with those of [input.iterators]. -/
def forwardRequires : List Expr := [.star, .arrow, .eq, .ne, .preInc, .postInc]

/-- [random.access.iterators], with those of [bidirectional.iterators] and [forward.iterators]. -/
def randomRequires : List Expr :=
  forwardRequires ++ [.preDec, .postDec, .plusAssign, .minusAssign, .plus, .numberPlus, .minus, .diff, .subscript, .lt, .gt, .le, .ge]

/-- iterator.hpp:108-113 -/
def forwardProvides : List Expr := [.eq, .ne, .preInc, .postInc, .star, .arrow]

/-- iterator.hpp:75-89 -/
def randomProvides : List Expr := [.eq, .ne, .lt, .le, .gt, .ge, .diff, .plus, .minus, .plusAssign, .minusAssign, .preInc, .preDec, .star, .arrow]

/-- C107: the forward facade has all the operators of a forward iterator. -/
theorem C107_forward_operators (x : Expr) : x ∈ forwardRequires → x ∈ forwardProvides := by
  cases x <;> decide

/-- C107 is false for the random access facade: it declares itself a random access iterator (iterator.hpp:68) but has neither `a++`, `a--`, `n+a` nor `a[n]`. -/
theorem C107_random_refuted (x : Expr) :
    x ∈ randomRequires ∧ x ∉ randomProvides ↔ x = .postInc ∨ x = .postDec ∨ x = .numberPlus ∨ x = .subscript := by
  cases x <;> decide

/-! ## Examples -/

/-- Elements of an array of squares. -/
example : each arrayCore (fun i => .ok (i.1 * i.1)) 7 10 3 = .ok [9, 16, 25, 36] ∧
    back arrayCore (fun i => .ok (i.1 * i.1)) 3 10 7 = .ok [36, 25, 16, 9] ∧
    eachPost arrayCore (fun i => .ok (i.1 * i.1)) 7 10 3 = .ok [9, 16, 25, 36] ∧
    lowerBound arrayCore (fun i => .ok (i.1 * i.1)) (fun v => v < 30) 4 0 10 = .ok 6 := by decide +kernel

end Helper.Iter
