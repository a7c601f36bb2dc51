import Verif.Lazy.Reentrant
set_option linter.unusedSectionVars false
/-!
# What an evaluation with arbitrary factories does, as a relation

Supplement to C89: rules for evaluations and for running factories, without a bound on the depth, and the
proof that the model follows exactly these rules.
-/
namespace Helper.Lazy

/-- `_obj.reset(p)` where `p` is object `n`: the variable owns `n` afterwards; what it owned before is
deleted unless somebody else owns it. -/
structure Stored (x n : Nat) (w w' : World) : Prop where
  lz : w'.lz = w.lz.set x (some ⟨true, some n⟩)
  calls : w'.calls = w.calls
  nothing : (∀ m, ¬ Holds w x m) → w'.deleted = w.deleted
  shared : ∀ m y, Holds w x m → Holds w' y m → w'.deleted = w.deleted
  last : ∀ m, Holds w x m → (∀ y, ¬ Holds w' y m) → w'.deleted = w.deleted ++ [m]

/-- The state at the start of the call of the factory for `x`. -/
def calling (x : Nat) (s : RW) : RW := ⟨⟨s.w.lz, s.w.calls ++ [x], s.w.deleted⟩, s.given⟩

mutual
/-- `Evaluates F x s r s'`: evaluating `x` in `s` ends with `r` in `s'`. -/
inductive Evaluates (F : Nat → Nat → Prog) : Nat → RW → Res Nat → RW → Prop
  | dead {x s} : s.w.get x = none → Evaluates F x s (.ub .notAlive) s
  | known {x s k} : Holds s.w x k → Evaluates F x s (.ok k) ⟨s.w, s.given ++ [(x, k)]⟩
  | empty {x s} : s.w.get x = some ⟨false, none⟩ → Evaluates F x s (.exn .badFunctionCall) s
  | made {x s t w'} : Fresh s.w x → Makes F (F x s.w.calls.length) (calling x s) (.ok .obj) t →
      Stored x s.w.calls.length t.w w' →
      Evaluates F x s (.ok s.w.calls.length) ⟨w', t.given ++ [(x, s.w.calls.length)]⟩
  | null {x s t} : Fresh s.w x → Makes F (F x s.w.calls.length) (calling x s) (.ok .null) t →
      Evaluates F x s (.ub .nullDeref) t
  | throws {x s t e} : Fresh s.w x → Makes F (F x s.w.calls.length) (calling x s) (.ok (.throws e)) t →
      Evaluates F x s (.exn e) t
  | noBlock {x s t} : Fresh s.w x → Makes F (F x s.w.calls.length) (calling x s) (.ok .noBlock) t →
      Evaluates F x s (.exn .badAlloc) ⟨⟨t.w.lz, t.w.calls, t.w.deleted ++ [s.w.calls.length]⟩, t.given⟩
  | undefined {x s t u} : Fresh s.w x → Makes F (F x s.w.calls.length) (calling x s) (.ub u) t →
      Evaluates F x s (.ub u) t
  | aborts {x s t} : Fresh s.w x → Makes F (F x s.w.calls.length) (calling x s) .abort t →
      Evaluates F x s .abort t

/-- `Makes F p s r s'`: a factory that does `p` ends with `r` in `s'`. -/
inductive Makes (F : Nat → Nat → Prog) : Prog → RW → Res Outcome → RW → Prop
  | ret {o s} : Makes F (.ret o) s (.ok o) s
  | returns {y k s a t r s'} : Evaluates F y s (.ok a) t → Makes F (k (.ok a)) t r s' → Makes F (.call y k) s r s'
  | catches {y k s e t r s'} : Evaluates F y s (.exn e) t → Makes F (k (.exn e)) t r s' → Makes F (.call y k) s r s'
  | undefined {y k s u t} : Evaluates F y s (.ub u) t → Makes F (.call y k) s (.ub u) t
  | aborts {y k s t} : Evaluates F y s .abort t → Makes F (.call y k) s .abort t
end

theorem holds_held {w : World} {k : Nat} : w.held k = true ↔ ∃ y, Holds w y k := by
  rw [held_iff]
  constructor
  · rintro ⟨y, ⟨b, o⟩, h1, h2⟩
    cases h2
    exact ⟨y, b, h1⟩
  · rintro ⟨y, b, h⟩
    exact ⟨y, ⟨b, some k⟩, h, rfl⟩

theorem holds_lz {w w' : World} (h : w'.lz = w.lz) {y k : Nat} : Holds w' y k ↔ Holds w y k := by
  unfold Holds World.get; rw [h]

theorem stored (x n : Nat) (w : World) :
    Stored x n w ((w.set x (some ⟨true, some n⟩)).drop ((w.get x).bind Lz.obj)) := by
  refine ⟨drop_lz _ _, drop_calls _ _, ?_, ?_, ?_⟩
  · intro h
    have : (w.get x).bind Lz.obj = none := by
      match hg : w.get x with
      | none => rfl
      | some ⟨b, none⟩ => rfl
      | some ⟨b, some m⟩ => exact absurd ⟨b, hg⟩ (h m)
    rw [this]; rfl
  · rintro m y ⟨b, hb⟩ hy
    rw [hb] at hy ⊢
    have := holds_held.2 ⟨y, (holds_lz (drop_lz _ _)).1 hy⟩
    show (World.drop _ (some m)).deleted = _
    rw [World.drop, if_pos this]; rfl
  · rintro m ⟨b, hb⟩ hy
    rw [hb] at hy ⊢
    have : ¬ (w.set x (some ⟨true, some n⟩)).held m = true := by
      rw [holds_held]; rintro ⟨y, h⟩; exact hy y ((holds_lz (drop_lz _ _)).2 h)
    show (World.drop _ (some m)).deleted = _
    rw [World.drop, if_neg this]; rfl

theorem Stored.unique {x n : Nat} {w w1 w2 : World} (h1 : Stored x n w w1) (h2 : Stored x n w w2) : w1 = w2 := by
  have hl : w1.lz = w2.lz := h1.lz.trans h2.lz.symm
  have hc : w1.calls = w2.calls := h1.calls.trans h2.calls.symm
  have hd : w1.deleted = w2.deleted := by
    by_cases h : ∃ m, Holds w x m
    · obtain ⟨m, hm⟩ := h
      by_cases h' : ∃ y, Holds w1 y m
      · obtain ⟨y, hy⟩ := h'
        rw [h1.shared m y hm hy, h2.shared m y hm ((holds_lz hl.symm).2 hy)]
      · rw [h1.last m hm fun y hy => h' ⟨y, hy⟩, h2.last m hm fun y hy => h' ⟨y, (holds_lz hl).2 hy⟩]
    · rw [h1.nothing fun m hm => h ⟨m, hm⟩, h2.nothing fun m hm => h ⟨m, hm⟩]
  cases w1; cases w2; simp only at hl hc hd; rw [hl, hc, hd]

theorem runP_sound {F : Nat → Nat → Prog} {d : Nat}
    (ih : ∀ x s r s', evalR F d x s = some (r, s') → Evaluates F x s r s') :
    ∀ (p : Prog) (s : RW) (r : Res Outcome) (s' : RW), runP (evalR F d) p s = some (r, s') → Makes F p s r s' := by
  intro p
  induction p with
  | ret o => intro s r s' h; cases h; exact .ret
  | call y k ihk =>
    intro s r s' h
    rw [runP] at h
    match he : evalR F d y s with
    | none => rw [he] at h; cases h
    | some (.ok a, t) => rw [he] at h; exact .returns (ih _ _ _ _ he) (ihk _ _ _ _ h)
    | some (.exn e, t) => rw [he] at h; exact .catches (ih _ _ _ _ he) (ihk _ _ _ _ h)
    | some (.ub u, t) => rw [he] at h; cases h; exact .undefined (ih _ _ _ _ he)
    | some (.abort, t) => rw [he] at h; cases h; exact .aborts (ih _ _ _ _ he)

/-- An exception of a factory is an `Outcome`. -/
theorem Makes.noExn {F : Nat → Nat → Prog} {p : Prog} {s s' : RW} {e : Exn} : Makes F p s (.exn e) s' → False
  | .returns _ h => h.noExn
  | .catches _ h => h.noExn

theorem evalR_sound (F : Nat → Nat → Prog) : ∀ (d x : Nat) (s : RW) (r : Res Nat) (s' : RW),
    evalR F d x s = some (r, s') → Evaluates F x s r s' := by
  intro d
  induction d with
  | zero => intro x s r s' h; cases h
  | succ d ih =>
    intro x s r s' h
    rw [evalR] at h
    match hg : s.w.get x with
    | none => rw [hg] at h; cases h; exact .dead hg
    | some ⟨b, some k⟩ => rw [hg] at h; cases h; exact .known ⟨b, hg⟩
    | some ⟨false, none⟩ => rw [hg] at h; cases h; exact .empty hg
    | some ⟨true, none⟩ =>
      rw [hg] at h
      simp only [if_true] at h
      match hp : runP (evalR F d) (F x s.w.calls.length) (calling x s) with
      | none =>
        have hp' := hp; unfold calling at hp'; rw [hp'] at h; cases h
      | some (o, t) =>
        have hm := runP_sound ih _ _ _ _ hp
        have hp' := hp; unfold calling at hp'; rw [hp'] at h
        match o with
        | .ok .obj => cases h; exact .made hg hm (stored _ _ _)
        | .ok .null => cases h; exact .null hg hm
        | .ok (.throws e) => cases h; exact .throws hg hm
        | .ok .noBlock => cases h; exact .noBlock hg hm
        | .exn e => exact (Makes.noExn hm).elim
        | .ub u => cases h; exact .undefined hg hm
        | .abort => cases h; exact .aborts hg hm

theorem evalR_le {F : Nat → Nat → Prog} {d d' : Nat} (h : d ≤ d') (y : Nat) (s : RW) (a : Res Nat × RW)
    (he : evalR F d y s = some a) : evalR F d' y s = some a := C89_depth he h

/-- Running a factory to its end, given enough depth. -/
theorem evalR_call {F : Nat → Nat → Prog} {d x : Nat} {s t : RW} {o : Res Outcome} (hx : Fresh s.w x)
    (h : runP (evalR F d) (F x s.w.calls.length) (calling x s) = some (o, t)) :
    evalR F (d + 1) x s = some (finish x s.w.calls.length o t) := by
  have hx' : s.w.get x = some ⟨true, none⟩ := hx
  unfold calling at h
  rw [evalR, hx']
  simp only [if_true, h]

mutual
theorem Evaluates.complete {F : Nat → Nat → Prog} {x : Nat} {s : RW} {r : Res Nat} {s' : RW} :
    Evaluates F x s r s' → ∃ d, evalR F d x s = some (r, s')
  | .dead h => ⟨1, by rw [evalR, h]⟩
  | .known h => ⟨1, evalR_holds h⟩
  | .empty h => ⟨1, by rw [evalR, h]; rfl⟩
  | .made h hm hs => by
    obtain ⟨d, hd⟩ := hm.complete
    refine ⟨d + 1, ?_⟩
    rw [evalR_call h hd, hs.unique (stored _ _ _)]
    rfl
  | .null h hm => by
    obtain ⟨d, hd⟩ := hm.complete
    exact ⟨d + 1, evalR_call h hd⟩
  | .throws h hm => by
    obtain ⟨d, hd⟩ := hm.complete
    exact ⟨d + 1, evalR_call h hd⟩
  | .noBlock h hm => by
    obtain ⟨d, hd⟩ := hm.complete
    exact ⟨d + 1, evalR_call h hd⟩
  | .undefined h hm => by
    obtain ⟨d, hd⟩ := hm.complete
    exact ⟨d + 1, evalR_call h hd⟩
  | .aborts h hm => by
    obtain ⟨d, hd⟩ := hm.complete
    exact ⟨d + 1, evalR_call h hd⟩

theorem Makes.complete {F : Nat → Nat → Prog} {p : Prog} {s : RW} {r : Res Outcome} {s' : RW} :
    Makes F p s r s' → ∃ d, runP (evalR F d) p s = some (r, s')
  | .ret => ⟨0, rfl⟩
  | .returns he hm => by
    obtain ⟨d1, h1⟩ := he.complete
    obtain ⟨d2, h2⟩ := hm.complete
    refine ⟨max d1 d2, ?_⟩
    rw [runP, C89_depth h1 (Nat.le_max_left d1 d2)]
    exact runP_mono (evalR_le (Nat.le_max_right d1 d2)) _ _ _ h2
  | .catches he hm => by
    obtain ⟨d1, h1⟩ := he.complete
    obtain ⟨d2, h2⟩ := hm.complete
    refine ⟨max d1 d2, ?_⟩
    rw [runP, C89_depth h1 (Nat.le_max_left d1 d2)]
    exact runP_mono (evalR_le (Nat.le_max_right d1 d2)) _ _ _ h2
  | .undefined he => by
    obtain ⟨d, h⟩ := he.complete
    exact ⟨d, by rw [runP, h]⟩
  | .aborts he => by
    obtain ⟨d, h⟩ := he.complete
    exact ⟨d, by rw [runP, h]⟩
end

/-- C89: an evaluation returns within some depth if and only if the rules say so, with the same result
and the same effect. -/
theorem C89_exact {F : Nat → Nat → Prog} {x : Nat} {s s' : RW} {r : Res Nat} :
    Evaluates F x s r s' ↔ ∃ d, evalR F d x s = some (r, s') :=
  ⟨Evaluates.complete, fun ⟨d, h⟩ => evalR_sound F d x s r s' h⟩

/-- C89: at most one result. -/
theorem C89_deterministic {F : Nat → Nat → Prog} {x : Nat} {s s1 s2 : RW} {r1 r2 : Res Nat}
    (h1 : Evaluates F x s r1 s1) (h2 : Evaluates F x s r2 s2) : r1 = r2 ∧ s1 = s2 := by
  obtain ⟨d1, e1⟩ := h1.complete
  obtain ⟨d2, e2⟩ := h2.complete
  have := C89_depth e1 (Nat.le_max_left d1 d2)
  rw [C89_depth e2 (Nat.le_max_right d1 d2)] at this
  cases this; exact ⟨rfl, rfl⟩

/-- A factory that evaluates a destroyed variable: undefined, and so is the evaluation. -/
example : Evaluates (fun _ _ => .call 1 fun _ => .ret .obj) 0 ⟨⟨[some ⟨true, none⟩, none], [], []⟩, []⟩
    (.ub .notAlive) ⟨⟨[some ⟨true, none⟩, none], [0], []⟩, []⟩ :=
  .undefined rfl (.undefined (.dead rfl))

/-- A factory that catches the exception of another one. -/
example : Evaluates (fun x _ => if x = 0 then .call 1 fun r => match r with
      | .exn _ => .ret .obj
      | _ => .ret .null
    else .ret (.throws (.user 3))) 0 ⟨⟨[some ⟨true, none⟩, some ⟨true, none⟩], [], []⟩, []⟩
    (.ok 0) ⟨⟨[some ⟨true, some 0⟩, some ⟨true, none⟩], [0, 1], []⟩, [(0, 0)]⟩ :=
  C89_exact.2 ⟨2, by decide⟩

end Helper.Lazy
