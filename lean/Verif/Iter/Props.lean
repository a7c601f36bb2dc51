import Verif.Iter.Model
/-!
# Properties C46 and C47: iterators
-/
namespace Helper.Iter

variable {I : Type u}

/-- The client class acts as positions on a line from `lo` to `hi`, whose differences are `ptrdiff_t`
values; `advance` is defined when it stays on the line. -/
structure OnLine (C : Core I) (pos : I → Int) (lo hi : Int) : Prop where
  range : ∀ i, lo ≤ pos i ∧ pos i ≤ hi
  span : hi - lo < 2 ^ 63
  equal : ∀ i j, C.equal i j = decide (pos i = pos j)
  distance : ∀ i j, C.distanceTo i j = pos j - pos i
  advance : ∀ i n, lo ≤ pos i + n → pos i + n ≤ hi → ∃ j, C.advance i n = .ok j ∧ pos j = pos i + n

/-- C46: the comparisons are those of the positions. -/
theorem C46_compare {C : Core I} {pos : I → Int} {lo hi : Int} (h : OnLine C pos lo hi) (i j : I) :
    (eq C i j = true ↔ pos i = pos j) ∧ (ne C i j = true ↔ pos i ≠ pos j) ∧
    (lt C i j = true ↔ pos i < pos j) ∧ (le C i j = true ↔ pos i ≤ pos j) ∧
    (gt C i j = true ↔ pos i > pos j) ∧ (ge C i j = true ↔ pos i ≥ pos j) := by
  simp only [eq, ne, lt, le, gt, ge, h.equal, h.distance, decide_eq_true_eq, Bool.not_eq_true', decide_eq_false_iff_not]
  refine ⟨by simp, by simp, ?_, ?_, ?_, ?_⟩ <;> omega

/-- C46: the difference of iterators. -/
theorem C46_diff {C : Core I} {pos : I → Int} {lo hi : Int} (h : OnLine C pos lo hi) (i j : I) :
    diff C i j = .ok (pos i - pos j) := by
  have h1 := h.range i
  have h2 := h.range j
  have h3 := h.span
  rw [diff, neg, h.distance, if_neg (by omega)]
  congr 1
  omega

/-- C46: moving by an offset, whenever the target is on the line. -/
theorem C46_move {C : Core I} {pos : I → Int} {lo hi : Int} (h : OnLine C pos lo hi) (i : I) (n : Int) :
    (lo ≤ pos i + n → pos i + n ≤ hi →
      ∃ j, plus C i n = .ok j ∧ plusAssign C i n = .ok j ∧ pos j = pos i + n) ∧
    (lo ≤ pos i - n → pos i - n ≤ hi →
      ∃ j, minus C i n = .ok j ∧ minusAssign C i n = .ok j ∧ pos j = pos i - n) ∧
    (pos i < hi → ∃ j, preInc C i = .ok j ∧ pos j = pos i + 1) ∧
    (lo < pos i → ∃ j, preDec C i = .ok j ∧ pos j = pos i - 1) := by
  have hr := h.range i
  have hs := h.span
  refine ⟨fun h1 h2 => ?_, fun h1 h2 => ?_, fun h1 => ?_, fun h1 => ?_⟩
  · obtain ⟨j, hj, hp⟩ := h.advance i n h1 h2
    exact ⟨j, hj, hj, hp⟩
  · obtain ⟨j, hj, hp⟩ := h.advance i (-n) (by omega) (by omega)
    refine ⟨j, ?_, ?_, by omega⟩
    · rw [minus, neg, if_neg (by omega)]; exact hj
    · rw [minusAssign, neg, if_neg (by omega)]; exact hj
  · exact h.advance i 1 (by omega) (by omega)
  · obtain ⟨j, hj, hp⟩ := h.advance i (-1) (by omega) (by omega)
    exact ⟨j, hj, by omega⟩

/-- C46: the laws: (i+n)-i = n, (i+n)-n = i, (i-n)+n = i, ++ and -- undo each other, i+(j-i) = j, and
i < j iff j-i > 0. -/
theorem C46_laws {C : Core I} {pos : I → Int} {lo hi : Int} (h : OnLine C pos lo hi) (i j : I) (n : Int) :
    (∀ k, lo ≤ pos i + n → pos i + n ≤ hi → plus C i n = .ok k →
      diff C k i = .ok n ∧ ∃ l, minus C k n = .ok l ∧ eq C l i = true) ∧
    (∀ k, lo ≤ pos i - n → pos i - n ≤ hi → minus C i n = .ok k → ∃ l, plus C k n = .ok l ∧ eq C l i = true) ∧
    (∀ k, pos i < hi → preInc C i = .ok k → lt C i k = true ∧ ∃ l, preDec C k = .ok l ∧ eq C l i = true) ∧
    (∃ d k, diff C j i = .ok d ∧ plus C i d = .ok k ∧ eq C k j = true ∧ (lt C i j = true ↔ d > 0)) := by
  have hri := h.range i
  have hrj := h.range j
  refine ⟨fun k h1 h2 hk => ?_, fun k h1 h2 hk => ?_, fun k h1 hk => ?_, ?_⟩
  · obtain ⟨k', hk1, _, hp⟩ := (C46_move h i n).1 h1 h2
    rw [hk] at hk1; cases hk1
    refine ⟨by rw [C46_diff h, hp]; congr 1; omega, ?_⟩
    obtain ⟨l, hl, _, hlp⟩ := (C46_move h k n).2.1 (by omega) (by omega)
    exact ⟨l, hl, (C46_compare h l i).1.2 (by omega)⟩
  · obtain ⟨k', hk1, _, hp⟩ := (C46_move h i n).2.1 h1 h2
    rw [hk] at hk1; cases hk1
    obtain ⟨l, hl, _, hlp⟩ := (C46_move h k n).1 (by omega) (by omega)
    exact ⟨l, hl, (C46_compare h l i).1.2 (by omega)⟩
  · obtain ⟨k', hk1, hp⟩ := (C46_move h i n).2.2.1 h1
    rw [hk] at hk1; cases hk1
    obtain ⟨l, hl, hlp⟩ := (C46_move h k n).2.2.2 (by omega)
    exact ⟨(C46_compare h i k).2.2.1.2 (by omega), l, hl, (C46_compare h l i).1.2 (by omega)⟩
  · obtain ⟨k, hk, _, hp⟩ := (C46_move h i (pos j - pos i)).1 (by omega) (by omega)
    refine ⟨pos j - pos i, k, C46_diff h j i, hk, (C46_compare h k j).1.2 (by omega), ?_⟩
    rw [(C46_compare h i j).2.2.1]; omega

/-- C46: the exception: subtracting -2^63 overflows, for every class and position. -/
theorem C46_overflow (C : Core I) (i : I) :
    minus C i (-2 ^ 63) = .ub .overflow ∧ minusAssign C i (-2 ^ 63) = .ub .overflow := ⟨rfl, rfl⟩

/-- Positions 0 to 10 of an array. -/
def arrayCore : Core (Fin 11) where
  equal i j := i == j
  distanceTo i j := j.1 - i.1
  advance i n := if h : 0 ≤ i.1 + n ∧ i.1 + n ≤ 10 then .ok ⟨(i.1 + n).toNat, by omega⟩ else .ub .outOfBounds
  increment i := if h : i.1 < 10 then .ok ⟨i.1 + 1, by omega⟩ else .ub .outOfBounds

theorem arrayCore_onLine : OnLine arrayCore (fun i => (i.1 : Int)) 0 10 where
  range i := by omega
  span := by decide
  equal i j := by
    show (i == j) = _
    rw [Bool.eq_iff_iff]
    simp only [beq_iff_eq, decide_eq_true_eq, Fin.ext_iff]
    omega
  distance i j := rfl
  advance i n h1 h2 := by
    refine ⟨⟨((i.1 : Int) + n).toNat, by omega⟩, ?_, ?_⟩
    · simp [arrayCore, h1, h2]
    · simp only; omega

example : plus arrayCore 3 4 = .ok 7 ∧ diff arrayCore 3 7 = .ok (-4) ∧ minus arrayCore 3 (-4) = .ok 7 := by decide +kernel

/-! ## C47 -/

/-- C47: the forward facade: `==` and `!=` are opposite, `++i` and `i++` call `increment` once; the first
returns the new iterator, the second the old one; a failing increment is passed on. -/
theorem C47_forward (C : Core I) (i j : I) :
    eq C i j = C.equal i j ∧ ne C i j = !eq C i j ∧
    (∀ i', C.increment i = .ok i' → fwdPreInc C i = .ok (i', i') ∧ fwdPostInc C i = .ok (i, i')) ∧
    (∀ e, C.increment i = .exn e → fwdPreInc C i = .exn e ∧ fwdPostInc C i = .exn e) ∧
    (∀ k, C.increment i = .ub k → fwdPreInc C i = .ub k ∧ fwdPostInc C i = .ub k) := by
  refine ⟨rfl, rfl, fun i' h => ?_, fun e h => ?_, fun k h => ?_⟩ <;>
    simp [fwdPreInc, fwdPostInc, h, Res.bind]

/-- `n` times `++i`. -/
def incTimes (C : Core I) (i : I) : Nat → Res I
  | 0 => .ok i
  | n + 1 => (incTimes C i n).bind fun k => (fwdPreInc C k).bind fun p => .ok p.2

/-- C47: iterating `++` `n` times over a sequence numbered by `pos` visits `n` further positions. -/
theorem C47_iterate (C : Core I) (pos : I → Nat) (len : Nat)
    (h : ∀ i, pos i < len → ∃ i', C.increment i = .ok i' ∧ pos i' = pos i + 1) :
    ∀ (n : Nat) (i : I), pos i + n ≤ len →
      ∃ j, incTimes C i n = .ok j ∧ pos j = pos i + n := by
  intro n
  induction n with
  | zero => intro i _; exact ⟨i, rfl, rfl⟩
  | succ n ih =>
    intro i hn
    obtain ⟨j, hj, hp⟩ := ih i (by omega)
    obtain ⟨k, hk, hkp⟩ := h j (by omega)
    refine ⟨k, ?_, by omega⟩
    simp [incTimes, hj, Res.bind, fwdPreInc, hk]

/-- C47: a PairIterator compares equal iff both components do, and advances both by the same offset. -/
theorem C47_pair {I1 : Type u} {I2 : Type v} (eq1 : I1 → I1 → Bool) (eq2 : I2 → I2 → Bool)
    (add1 : I1 → Int → Res I1) (add2 : I2 → Int → Res I2) (p q : I1 × I2) (k : Int) :
    (pairEqual eq1 eq2 p q = true ↔ eq1 p.1 q.1 = true ∧ eq2 p.2 q.2 = true) ∧
    (∀ a b, pairAdvance add1 add2 p k = (.ok (), (a, b)) ↔ add1 p.1 k = .ok a ∧ add2 p.2 k = .ok b) := by
  refine ⟨by simp [pairEqual], fun a b => ?_⟩
  unfold pairAdvance
  cases h1 : add1 p.1 k <;> cases h2 : add2 p.2 k <;> simp

/-- C47: if advancing the second component fails, the first one has already moved. -/
theorem C47_pair_failure {I1 : Type u} {I2 : Type v} (add1 : I1 → Int → Res I1) (add2 : I2 → Int → Res I2)
    (p : I1 × I2) (k : Int) {a : I1} {e : Exn} (h1 : add1 p.1 k = .ok a) (h2 : add2 p.2 k = .exn e) :
    pairAdvance add1 add2 p k = (.exn e, (a, p.2)) := by
  simp [pairAdvance, h1, h2]

example : fwdPostInc arrayCore 3 = .ok (3, 4) ∧ fwdPreInc arrayCore 3 = .ok (4, 4) ∧
    pairAdvance arrayCore.advance arrayCore.advance (3, 5) 2 = (.ok (), (5, 7)) := by decide +kernel

end Helper.Iter
