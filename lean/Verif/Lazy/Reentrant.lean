import Verif.Lazy.Props
set_option linter.unusedSectionVars false
/-!
# Factories that evaluate Lazy variables

Property C89. A factory may evaluate Lazy variables, its own one included. The rest is as in the basic
model: call `n` of the whole run makes object `n`.
-/
namespace Helper.Lazy

/-! ## Model -/

/-- What a factory does in one call: it evaluates variables and goes on according to the outcomes (an
exception may be caught or not), and ends in one of the ways of `Outcome`. -/
inductive Prog where
  | ret (o : Outcome)
  | call (y : Nat) (k : Res Nat → Prog)

/-- The variables, and the results `(x, k)` of the evaluations so far: a reference to object `k` was
returned by an evaluation of `x`. -/
structure RW where
  w : World
  given : List (Nat × Nat)
deriving DecidableEq, Repr

/-- Running a factory; `ev` evaluates a variable. `none`: not finished. -/
def runP (ev : Nat → RW → Option (Res Nat × RW)) : Prog → RW → Option (Res Outcome × RW)
  | .ret o, s => some (.ok o, s)
  | .call y k, s =>
    match ev y s with
    | none => none
    | some (.ub u, s') => some (.ub u, s')
    | some (.abort, s') => some (.abort, s')
    | some (r, s') => runP ev (k r) s'

/-- The end of `_obj.reset(_func()); return *_obj;` (lazy.hpp:47): call `n` for `x` has ended in `r`.
`reset` gives up the object that the variable owns by then, after taking the new one; it changes
nothing if it throws. -/
def finish (x n : Nat) : Res Outcome → RW → Res Nat × RW
  | .ok .obj, s =>
    (.ok n, ⟨(s.w.set x (some ⟨true, some n⟩)).drop ((s.w.get x).bind Lz.obj), s.given ++ [(x, n)]⟩)
  | .ok .null, s => (.ub .nullDeref, s)
  | .ok (.throws e), s => (.exn e, s)
  | .ok .noBlock, s => (.exn .badAlloc, ⟨{ s.w with deleted := s.w.deleted ++ [n] }, s.given⟩)
  | .exn e, s => (.exn e, s)
  | .ub u, s => (.ub u, s)
  | .abort, s => (.abort, s)

/-- lazy.hpp:47 `operator()`, with factories `F x n` (variable, number of the call). The first
argument bounds the depth of nested evaluations; `none`: the bound was met. -/
def evalR (F : Nat → Nat → Prog) : Nat → Nat → RW → Option (Res Nat × RW)
  | 0, _, _ => none
  | d + 1, x, s =>
    match s.w.get x with
    | none => some (.ub .notAlive, s)
    | some z =>
      match z.obj with
      | some k => some (.ok k, ⟨s.w, s.given ++ [(x, k)]⟩)
      | none =>
        if z.func then
          match runP (evalR F d) (F x s.w.calls.length) ⟨{ s.w with calls := s.w.calls ++ [x] }, s.given⟩ with
          | none => none
          | some (r, s') => some (finish x s.w.calls.length r s')
        else some (.exn .badFunctionCall, s)

/-- No factory evaluates its own variable, directly or through others: the variables can be ordered
such that every factory evaluates only smaller ones. -/
inductive Below (rank : Nat → Nat) (r : Nat) : Prog → Prop
  | ret {o} : Below rank r (.ret o)
  | call {y k} : rank y < r → (∀ a, Below rank r (k a)) → Below rank r (.call y k)

def Acyclic (rank : Nat → Nat) (F : Nat → Nat → Prog) : Prop := ∀ x n, Below rank (rank x) (F x n)

/-! ## How an evaluation changes the variables -/

/-- Objects are numbered by calls made; an object that is owned has not been deleted. -/
structure Ok (w : World) : Prop where
  held : ∀ y k, Holds w y k → k ∉ w.deleted ∧ k < w.calls.length
  deleted : ∀ k ∈ w.deleted, k < w.calls.length

/-- From `w` to `w'`: variables that own something keep it, the others may have been given new objects. -/
structure Evolves (w w' : World) : Prop where
  calls : ∃ t, w'.calls = w.calls ++ t
  keep : ∀ y, w.get y ≠ some ⟨true, none⟩ → w'.get y = w.get y
  fresh : ∀ y, w.get y = some ⟨true, none⟩ → w'.get y = some ⟨true, none⟩ ∨
    ∃ k, w.calls.length ≤ k ∧ k < w'.calls.length ∧ w'.get y = some ⟨true, some k⟩
  sole : ∀ y z k, w.calls.length ≤ k → Holds w' y k → Holds w' z k → y = z
  deleted : ∃ t, w'.deleted = w.deleted ++ t ∧ ∀ k ∈ t, w.calls.length ≤ k
  ok : Ok w'

namespace Evolves
variable {w w1 w2 : World}

theorem len (h : Evolves w w1) : w.calls.length ≤ w1.calls.length := by
  obtain ⟨t, ht⟩ := h.calls; rw [ht]; simp

theorem refl (h : Ok w) : Evolves w w where
  calls := ⟨[], by simp⟩
  keep := fun _ _ => rfl
  fresh := fun _ h => .inl h
  sole := fun y z k hk hy _ => absurd (h.held y k hy).2 (by omega)
  deleted := ⟨[], by simp, fun _ h => by cases h⟩
  ok := h

theorem holds (h : Evolves w w1) {y k : Nat} (hy : Holds w y k) : Holds w1 y k := by
  obtain ⟨b, hb⟩ := hy
  refine ⟨b, ?_⟩
  rw [h.keep y (by rw [hb]; simp)]; exact hb

theorem back (h : Evolves w w1) {y k : Nat} (hy : Holds w1 y k) : Holds w y k ∨ w.calls.length ≤ k := by
  obtain ⟨b, hb⟩ := hy
  by_cases hf : w.get y = some ⟨true, none⟩
  · rcases h.fresh y hf with h1 | ⟨j, h1, _, h2⟩
    · rw [h1] at hb; cases hb
    · rw [h2] at hb; cases hb; exact .inr h1
  · rw [h.keep y hf] at hb; exact .inl ⟨b, hb⟩

theorem trans (h : Evolves w w1) (h' : Evolves w1 w2) : Evolves w w2 where
  calls := by
    obtain ⟨t, ht⟩ := h.calls
    obtain ⟨u, hu⟩ := h'.calls
    exact ⟨t ++ u, by rw [hu, ht, List.append_assoc]⟩
  keep := fun y hy => by
    have := h.keep y hy
    rw [← this]; exact h'.keep y (by rw [this]; exact hy)
  fresh := fun y hy => by
    rcases h.fresh y hy with h1 | ⟨k, h1, h2, h3⟩
    · rcases h'.fresh y h1 with h4 | ⟨k, h4, h5, h6⟩
      · exact .inl h4
      · exact .inr ⟨k, Nat.le_trans h.len h4, h5, h6⟩
    · exact .inr ⟨k, h1, Nat.lt_of_lt_of_le h2 h'.len, by rw [h'.keep y (by rw [h3]; simp)]; exact h3⟩
  sole := fun y z k hk hy hz => by
    by_cases hk1 : w1.calls.length ≤ k
    · exact h'.sole y z k hk1 hy hz
    · exact h.sole y z k hk ((h'.back hy).resolve_right hk1) ((h'.back hz).resolve_right hk1)
  deleted := by
    obtain ⟨t, ht, ht'⟩ := h.deleted
    obtain ⟨u, hu, hu'⟩ := h'.deleted
    refine ⟨t ++ u, by rw [hu, ht, List.append_assoc], fun k hk => ?_⟩
    rcases List.mem_append.1 hk with hk | hk
    · exact ht' k hk
    · exact Nat.le_trans h.len (hu' k hk)
  ok := h'.ok

end Evolves

/-- Every object handed out is still owned by the variable, or has been deleted. -/
def Settled (s : RW) : Prop := ∀ y k, (y, k) ∈ s.given → Holds s.w y k ∨ k ∈ s.w.deleted

/-- What an evaluation does. -/
structure Good (s s' : RW) : Prop where
  ev : Evolves s.w s'.w
  log : ∃ t, s'.given = s.given ++ t
  settled : Settled s → Settled s'

theorem Good.trans {s s1 s2 : RW} (h : Good s s1) (h' : Good s1 s2) : Good s s2 where
  ev := h.ev.trans h'.ev
  log := by
    obtain ⟨t, ht⟩ := h.log
    obtain ⟨u, hu⟩ := h'.log
    exact ⟨t ++ u, by rw [hu, ht, List.append_assoc]⟩
  settled := h'.settled ∘ h.settled

theorem Good.refl {s : RW} (h : Ok s.w) : Good s s := ⟨.refl h, ⟨[], by simp⟩, id⟩

theorem runP_good {ev : Nat → RW → Option (Res Nat × RW)}
    (hev : ∀ y s r s', Ok s.w → ev y s = some (r, s') → Good s s') :
    ∀ (p : Prog) (s : RW) (r : Res Outcome) (s' : RW), Ok s.w → runP ev p s = some (r, s') → Good s s' := by
  intro p
  induction p with
  | ret o =>
    intro s r s' h hr
    simp only [runP, Option.some.injEq, Prod.mk.injEq] at hr
    rw [← hr.2]; exact .refl h
  | call y k ih =>
    intro s r s' h hr
    rw [runP] at hr
    match he : ev y s with
    | none => rw [he] at hr; cases hr
    | some (.ub u, s1) => rw [he] at hr; cases hr; exact hev y s _ _ h he
    | some (.abort, s1) => rw [he] at hr; cases hr; exact hev y s _ _ h he
    | some (.ok a, s1) =>
      rw [he] at hr
      have h1 := hev y s _ _ h he
      exact h1.trans (ih _ s1 r s' h1.ev.ok hr)
    | some (.exn a, s1) =>
      rw [he] at hr
      have h1 := hev y s _ _ h he
      exact h1.trans (ih _ s1 r s' h1.ev.ok hr)

/-- The state in which the factory is called. -/
theorem called_ok {w : World} (h : Ok w) (x : Nat) : Ok { w with calls := w.calls ++ [x] } where
  held := fun y k hy => by
    have := h.held y k hy
    exact ⟨this.1, by simp only [List.length_append]; omega⟩
  deleted := fun k hk => by
    have := h.deleted k hk
    simp only [List.length_append]; omega

theorem called {w : World} (h : Ok w) (x : Nat) : Evolves w { w with calls := w.calls ++ [x] } where
  calls := ⟨[x], rfl⟩
  keep := fun _ _ => rfl
  fresh := fun _ h => .inl h
  sole := fun y z k hk hy _ => absurd (h.held y k hy).2 (by omega)
  deleted := ⟨[], by simp, fun _ h => by cases h⟩
  ok := called_ok h x

/-- What the old object of `x`, if any, is when the factory has finished. -/
theorem old_obj {w w2 : World} {x : Nat} (hx : Fresh w x)
    (h12 : Evolves { w with calls := w.calls ++ [x] } w2) :
    w2.get x = some ⟨true, none⟩ ∨ ∃ m, w.calls.length < m ∧ m < w2.calls.length ∧ w2.get x = some ⟨true, some m⟩ := by
  rcases h12.fresh x hx with h1 | ⟨m, h1, h2, h3⟩
  · exact .inl h1
  · refine .inr ⟨m, ?_, h2, h3⟩
    simp only [List.length_append, List.length_singleton] at h1
    omega

theorem finish_obj {w w2 : World} (h : Ok w) {x : Nat} (hx : Fresh w x)
    (h12 : Evolves { w with calls := w.calls ++ [x] } w2) :
    Evolves w ((w2.set x (some ⟨true, some w.calls.length⟩)).drop ((w2.get x).bind Lz.obj)) ∧
    Holds ((w2.set x (some ⟨true, some w.calls.length⟩)).drop ((w2.get x).bind Lz.obj)) x w.calls.length ∧
    (∀ m, Holds w2 x m → m ∈ ((w2.set x (some ⟨true, some w.calls.length⟩)).drop ((w2.get x).bind Lz.obj)).deleted) ∧
    (∀ y, y ≠ x → ((w2.set x (some ⟨true, some w.calls.length⟩)).drop ((w2.get x).bind Lz.obj)).get y = w2.get y) ∧
    (∀ m ∈ w2.deleted, m ∈ ((w2.set x (some ⟨true, some w.calls.length⟩)).drop ((w2.get x).bind Lz.obj)).deleted) := by
  have hlen : w.calls.length < w2.calls.length := by
    have := h12.len
    simp only [List.length_append, List.length_singleton] at this; omega
  have hold := old_obj hx h12
  have hxl : x < w2.lz.length := by
    rcases hold with h1 | ⟨m, _, _, h1⟩ <;> exact get_lt h1
  generalize hw3 : (w2.set x (some ⟨true, some w.calls.length⟩)).drop ((w2.get x).bind Lz.obj) = w3
  have hget : ∀ y, w3.get y = if y = x then some ⟨true, some w.calls.length⟩ else w2.get y := by
    intro y; rw [← hw3, drop_get, get_set hxl]
  have hcalls : w3.calls = w2.calls := by rw [← hw3, drop_calls]; rfl
  obtain ⟨t, ht, ht'⟩ := h12.deleted
  have hn2 : w.calls.length ∉ w2.deleted := by
    rw [ht]
    intro hm
    rcases List.mem_append.1 hm with hm | hm
    · exact absurd (h.deleted _ hm) (by omega)
    · have := ht' _ hm
      simp only [List.length_append, List.length_singleton] at this; omega
  -- no other variable owns a new object that `x` owns
  have hsole : ∀ y m, w.calls.length < m → Holds w2 x m → Holds w2 y m → y = x := by
    intro y m hm h1 h2
    exact h12.sole y x m (by simp only [List.length_append, List.length_singleton]; omega) h2 h1
  -- nobody else owns object n
  have hnobody : ∀ y, ¬ Holds w2 y w.calls.length := by
    intro y hy
    rcases h12.back hy with h1 | h1
    · exact absurd ((called_ok h x).held y _ h1) (fun ⟨_, _⟩ => by
        have := (h.held y _ h1).2; omega)
    · simp only [List.length_append, List.length_singleton] at h1; omega
  have hholds3 : ∀ y k, Holds w3 y k ↔ (y = x ∧ k = w.calls.length) ∨ (y ≠ x ∧ Holds w2 y k) := by
    intro y k
    unfold Holds
    rw [hget y]
    by_cases hy : y = x
    · rw [if_pos hy]; simp [hy, eq_comm]
    · rw [if_neg hy]; simp [hy]
  -- the deleted objects
  have hdel : (∃ m, w2.get x = some ⟨true, some m⟩ ∧ w.calls.length < m ∧ m < w2.calls.length ∧
        w3.deleted = w2.deleted ++ [m]) ∨
      (w2.get x = some ⟨true, none⟩ ∧ w3.deleted = w2.deleted) := by
    rcases hold with h1 | ⟨m, h1, h2, h3⟩
    · refine .inr ⟨h1, ?_⟩
      rw [← hw3, h1]; rfl
    · refine .inl ⟨m, h3, h1, h2, ?_⟩
      rw [← hw3, h3]
      rcases drop_deleted (w2.set x (some ⟨true, some w.calls.length⟩)) (some m) with ⟨k, hk, _, hd⟩ | ⟨hheld, _⟩
      · cases hk; exact hd
      · exfalso
        obtain ⟨y, z, hy, hz⟩ := hheld m rfl
        rw [get_set hxl] at hy
        by_cases hyx : y = x
        · rw [if_pos hyx] at hy; cases hy; simp only [Option.some.injEq] at hz; omega
        · rw [if_neg hyx] at hy
          exact hyx (hsole y m h1 ⟨true, h3⟩ ⟨z.func, by rw [hy]; cases z; simp only at hz; rw [hz]⟩)
  refine ⟨⟨?_, ?_, ?_, ?_, ?_, ?_, ?_⟩, ?_, ?_, ?_, ?_⟩
  · obtain ⟨u, hu⟩ := h12.calls
    exact ⟨[x] ++ u, by rw [hcalls, hu, List.append_assoc]⟩
  · intro y hy
    have hyx : y ≠ x := fun e => hy (by rw [e]; exact hx)
    rw [hget y, if_neg hyx]
    exact h12.keep y hy
  · intro y hy
    by_cases hyx : y = x
    · exact .inr ⟨w.calls.length, Nat.le_refl _, by rw [hcalls]; exact hlen, by rw [hget y, if_pos hyx]⟩
    · rw [hget y, if_neg hyx]
      rcases h12.fresh y hy with h1 | ⟨k, h1, h2, h3⟩
      · exact .inl h1
      · simp only [List.length_append, List.length_singleton] at h1
        exact .inr ⟨k, by omega, by rw [hcalls]; exact h2, h3⟩
  · intro y z k hk hy hz
    rw [hholds3] at hy hz
    rcases hy with ⟨hy, hk1⟩ | ⟨hy, hy'⟩ <;> rcases hz with ⟨hz, hk2⟩ | ⟨hz, hz'⟩
    · rw [hy, hz]
    · subst hk1; exact absurd hz' (hnobody z)
    · subst hk2; exact absurd hy' (hnobody y)
    · by_cases hkn : k = w.calls.length
      · subst hkn; exact absurd hy' (hnobody y)
      · exact h12.sole y z k (by simp only [List.length_append, List.length_singleton]; omega) hy' hz'
  · rcases hdel with ⟨m, _, h2, _, h3⟩ | ⟨_, h3⟩
    · refine ⟨t ++ [m], by rw [h3, ht, List.append_assoc], fun k hk => ?_⟩
      rcases List.mem_append.1 hk with hk | hk
      · have := ht' k hk
        simp only [List.length_append, List.length_singleton] at this; omega
      · simp only [List.mem_singleton] at hk; omega
    · refine ⟨t, by rw [h3, ht], fun k hk => ?_⟩
      have := ht' k hk
      simp only [List.length_append, List.length_singleton] at this; omega
  · intro y k hy
    rw [hholds3] at hy
    rw [hcalls]
    rcases hy with ⟨hy, rfl⟩ | ⟨hy, hy'⟩
    · refine ⟨?_, hlen⟩
      rcases hdel with ⟨m, _, h2, _, h3⟩ | ⟨_, h3⟩
      · rw [h3]
        intro hm
        rcases List.mem_append.1 hm with hm | hm
        · exact hn2 hm
        · simp only [List.mem_singleton] at hm; omega
      · rw [h3]; exact hn2
    · obtain ⟨g1, g2⟩ := h12.ok.held y k hy'
      refine ⟨?_, g2⟩
      rcases hdel with ⟨m, h1, h2, _, h3⟩ | ⟨_, h3⟩
      · rw [h3]
        intro hm
        rcases List.mem_append.1 hm with hm | hm
        · exact g1 hm
        · simp only [List.mem_singleton] at hm
          subst hm
          exact hy (hsole y k h2 ⟨true, h1⟩ hy')
      · rw [h3]; exact g1
  · intro k hk
    rw [hcalls]
    rcases hdel with ⟨m, _, _, h2, h3⟩ | ⟨_, h3⟩
    · rw [h3] at hk
      rcases List.mem_append.1 hk with hk | hk
      · exact h12.ok.deleted k hk
      · simp only [List.mem_singleton] at hk; omega
    · rw [h3] at hk; exact h12.ok.deleted k hk
  · rw [hholds3]; exact .inl ⟨rfl, rfl⟩
  · rintro m ⟨b, hm⟩
    rcases hdel with ⟨m', h1, _, _, h3⟩ | ⟨h1, h3⟩
    · rw [h1] at hm; cases hm; rw [h3]; simp
    · rw [h1] at hm; cases hm
  · intro y hy; rw [hget y, if_neg hy]
  · intro m hm
    rcases hdel with ⟨m', h1, _, _, h3⟩ | ⟨h1, h3⟩
    · rw [h3]; exact List.mem_append_left _ hm
    · rw [h3]; exact hm

theorem finish_noBlock {w w2 : World} (h : Ok w) {x : Nat}
    (h12 : Evolves { w with calls := w.calls ++ [x] } w2) :
    Evolves w { w2 with deleted := w2.deleted ++ [w.calls.length] } := by
  have h02 := (called h x).trans h12
  have hlen : w.calls.length < w2.calls.length := by
    have := h12.len
    simp only [List.length_append, List.length_singleton] at this; omega
  refine ⟨h02.calls, h02.keep, h02.fresh, h02.sole, ?_, ⟨?_, ?_⟩⟩
  · obtain ⟨t, ht, ht'⟩ := h02.deleted
    refine ⟨t ++ [w.calls.length], by simp only [ht, List.append_assoc], fun k hk => ?_⟩
    rcases List.mem_append.1 hk with hk | hk
    · exact ht' k hk
    · simp only [List.mem_singleton] at hk; omega
  · intro y k hy
    obtain ⟨g1, g2⟩ := h12.ok.held y k hy
    refine ⟨?_, g2⟩
    intro hm
    rcases List.mem_append.1 hm with hm | hm
    · exact g1 hm
    · simp only [List.mem_singleton] at hm
      subst hm
      rcases h12.back (w1 := w2) (k := w.calls.length) hy with h1 | h1
      · have := (h.held y _ h1).2; omega
      · simp only [List.length_append, List.length_singleton] at h1; omega
  · intro k hk
    rcases List.mem_append.1 hk with hk | hk
    · exact h12.ok.deleted k hk
    · simp only [List.mem_singleton] at hk
      show k < w2.calls.length
      omega

theorem finish_good {s s2 : RW} (h : Ok s.w) {x : Nat} (hx : Fresh s.w x)
    (h12 : Good ⟨{ s.w with calls := s.w.calls ++ [x] }, s.given⟩ s2) (r : Res Outcome) :
    Good s (finish x s.w.calls.length r s2).2 := by
  have h01 : Good s ⟨{ s.w with calls := s.w.calls ++ [x] }, s.given⟩ :=
    ⟨called h x, ⟨[], by simp⟩, fun hs y k hy => hs y k hy⟩
  have hdone := h01.trans h12
  match r with
  | .ok .obj =>
    obtain ⟨g1, g2, g3, g4, g5⟩ := finish_obj h hx h12.ev
    refine ⟨g1, ?_, fun hs => ?_⟩
    · obtain ⟨t, ht⟩ := h12.log
      exact ⟨t ++ [(x, s.w.calls.length)], by simp only [finish, ht, List.append_assoc]⟩
    · have hs2 := hdone.settled hs
      intro y k hy
      simp only [finish] at hy ⊢
      rcases List.mem_append.1 hy with hy | hy
      · rcases hs2 y k hy with h1 | h1
        · by_cases hyx : y = x
          · subst hyx; exact .inr (g3 k h1)
          · obtain ⟨b, hb⟩ := h1
            exact .inl ⟨b, by rw [g4 y hyx]; exact hb⟩
        · exact .inr (g5 k h1)
      · simp only [List.mem_singleton, Prod.mk.injEq] at hy
        obtain ⟨rfl, rfl⟩ := hy
        exact .inl g2
  | .ok .null => exact hdone
  | .ok (.throws e) => exact hdone
  | .ok .noBlock =>
    refine ⟨finish_noBlock h h12.ev, hdone.log, fun hs y k hy => ?_⟩
    rcases hdone.settled hs y k hy with h1 | h1
    · exact .inl h1
    · exact .inr (List.mem_append_left _ h1)
  | .exn e => exact hdone
  | .ub u => exact hdone
  | .abort => exact hdone

theorem evalR_good (F : Nat → Nat → Prog) : ∀ (d x : Nat) (s : RW) (r : Res Nat) (s' : RW), Ok s.w →
    evalR F d x s = some (r, s') → Good s s' := by
  intro d
  induction d with
  | zero => intro x s r s' _ hr; cases hr
  | succ d ih =>
    intro x s r s' h hr
    rw [evalR] at hr
    match hg : s.w.get x with
    | none => rw [hg] at hr; cases hr; exact .refl h
    | some ⟨f, some k⟩ =>
      rw [hg] at hr; cases hr
      refine ⟨.refl h, ⟨[(x, k)], rfl⟩, fun hs y j hy => ?_⟩
      rcases List.mem_append.1 hy with hy | hy
      · exact hs y j hy
      · simp only [List.mem_singleton, Prod.mk.injEq] at hy
        obtain ⟨rfl, rfl⟩ := hy
        exact .inl ⟨f, hg⟩
    | some ⟨false, none⟩ => rw [hg] at hr; cases hr; exact .refl h
    | some ⟨true, none⟩ =>
      rw [hg] at hr
      simp only [if_true] at hr
      match hp : runP (evalR F d) (F x s.w.calls.length) ⟨{ s.w with calls := s.w.calls ++ [x] }, s.given⟩ with
      | none => rw [hp] at hr; cases hr
      | some (r1, s1) =>
        rw [hp] at hr
        simp only [Option.some.injEq] at hr
        have h1 := runP_good (fun y s r s' => ih y s r s') _ _ _ _ (called_ok h x) hp
        have := finish_good h hg h1 r1
        rw [hr] at this; exact this

theorem evalR_holds {F : Nat → Nat → Prog} {d x k : Nat} {s : RW} (h : Holds s.w x k) :
    evalR F (d + 1) x s = some (.ok k, ⟨s.w, s.given ++ [(x, k)]⟩) := by
  obtain ⟨b, hb⟩ := h
  rw [evalR, hb]

/-- An evaluation that returns an object leaves it with the variable. -/
theorem evalR_result {F : Nat → Nat → Prog} {d x k : Nat} {s s' : RW} (h : Ok s.w)
    (hr : evalR F d x s = some (.ok k, s')) : Holds s'.w x k ∧ (Fresh s.w x → k = s.w.calls.length) := by
  cases d with
  | zero => cases hr
  | succ d =>
    rw [evalR] at hr
    match hg : s.w.get x with
    | none => rw [hg] at hr; cases hr
    | some ⟨f, some j⟩ =>
      rw [hg] at hr; cases hr
      exact ⟨⟨f, hg⟩, fun hx => by rw [Fresh, hg] at hx; cases hx⟩
    | some ⟨false, none⟩ => rw [hg] at hr; cases hr
    | some ⟨true, none⟩ =>
      rw [hg] at hr
      simp only [if_true] at hr
      match hp : runP (evalR F d) (F x s.w.calls.length) ⟨{ s.w with calls := s.w.calls ++ [x] }, s.given⟩ with
      | none => rw [hp] at hr; cases hr
      | some (r1, s1) =>
        rw [hp] at hr
        have h1 := runP_good (fun y s r s' => evalR_good F d y s r s') _ _ _ _ (called_ok h x) hp
        match r1 with
        | .ok .obj =>
          simp only [Option.some.injEq] at hr
          cases hr
          exact ⟨(finish_obj h hg h1.ev).2.1, fun _ => rfl⟩
        | .ok .null => cases hr
        | .ok (.throws e) => cases hr
        | .ok .noBlock => cases hr
        | .exn e => cases hr
        | .ub u => cases hr
        | .abort => cases hr

/-! ## C89: for all factories -/

/-- Evaluations by the client, one after the other. -/
inductive Evals (F : Nat → Nat → Prog) : RW → RW → Prop
  | nil {s} : Evals F s s
  | cons {d y s r s1 s2} : evalR F d y s = some (r, s1) → Evals F s1 s2 → Evals F s s2

theorem Evals.good {F : Nat → Nat → Prog} {s s' : RW} (h : Evals F s s') : Ok s.w → Good s s' := by
  induction h with
  | nil => exact .refl
  | cons he _ ih =>
    intro hok
    have h1 := evalR_good F _ _ _ _ _ hok he
    exact h1.trans (ih h1.ev.ok)

/-- The beginning: no calls, nothing deleted, `n` variables not evaluated. -/
def RW.init (n : Nat) : RW := ⟨⟨List.replicate n (some ⟨true, none⟩), [], []⟩, []⟩

theorem init_ok (n : Nat) : Ok (RW.init n).w := by
  refine ⟨fun y k hy => ?_, fun k hk => by cases hk⟩
  obtain ⟨b, hb⟩ := hy
  simp only [RW.init, World.get, List.getElem?_replicate] at hb
  split at hb <;> cases hb

/-- C89: whatever the factories do, the object that the client gets from an evaluation of `x` is never
deleted, and all later evaluations of `x` return it without any call. -/
theorem C89_client {F : Nat → Nat → Prog} {n d x k : Nat} {s s1 s2 : RW} (h0 : Evals F (RW.init n) s)
    (hr : evalR F d x s = some (.ok k, s1)) (h : Evals F s1 s2) :
    k ∉ s2.w.deleted ∧ ∀ d', evalR F (d' + 1) x s2 = some (.ok k, ⟨s2.w, s2.given ++ [(x, k)]⟩) := by
  have hok := (h0.good (init_ok n)).ev.ok
  have h1 := evalR_good F _ _ _ _ _ hok hr
  have h2 := h.good h1.ev.ok
  have hh := h2.ev.holds (evalR_result hok hr).1
  exact ⟨(h2.ev.ok.held x k hh).1, fun d' => evalR_holds hh⟩

/-- C89: if the factory of `x` evaluates `x` itself, all objects that such evaluations returned are
deleted by the time the outer evaluation returns; it returns the object of the first call. -/
theorem C89_reentrant {F : Nat → Nat → Prog} {n d x k : Nat} {s s1 : RW} (h0 : Evals F (RW.init n) s)
    (hx : Fresh s.w x) (hr : evalR F d x s = some (.ok k, s1)) :
    k = s.w.calls.length ∧ ∀ m, (x, m) ∈ s1.given → m ≠ k → m ∈ s1.w.deleted := by
  have hg := h0.good (init_ok n)
  have hs : Settled s := hg.settled fun y k hy => by cases hy
  obtain ⟨h1, h2⟩ := evalR_result hg.ev.ok hr
  refine ⟨h2 hx, fun m hm hne => ?_⟩
  rcases (evalR_good F _ _ _ _ _ hg.ev.ok hr).settled hs x m hm with h3 | h3
  · obtain ⟨b, hb⟩ := h1
    obtain ⟨b', hb'⟩ := h3
    rw [hb] at hb'; cases hb'; exact absurd rfl hne
  · exact h3

/-- C89: a factory that always begins by evaluating its own variable never returns. -/
theorem C89_endless {F : Nat → Nat → Prog} {x : Nat} (hF : ∀ n, ∃ k, F x n = .call x k) :
    ∀ (d : Nat) (s : RW), Fresh s.w x → evalR F d x s = none := by
  intro d
  induction d with
  | zero => intro s _; rfl
  | succ d ih =>
    intro s hx
    have hx' : s.w.get x = some ⟨true, none⟩ := hx
    obtain ⟨k, hk⟩ := hF s.w.calls.length
    have := ih ⟨{ s.w with calls := s.w.calls ++ [x] }, s.given⟩ hx
    rw [evalR, hx']
    simp only [if_true, hk, runP, this]

/-- C89 fails as stated: the factory of variable 0 evaluates variable 0 in its first call. The inner
evaluation returns object 1; then the outer one replaces it by object 0, and object 1 is deleted
although the factory (or whoever it gave the reference to) may still use it. The factory is called
twice. -/
theorem C89_refuted :
    let F : Nat → Nat → Prog := fun _ n => if n = 0 then .call 0 (fun _ => .ret .obj) else .ret .obj
    evalR F 2 0 (RW.init 1) =
      some (.ok 0, ⟨⟨[some ⟨true, some 0⟩], [0, 0], [1]⟩, [(0, 1), (0, 0)]⟩) := by
  decide

/-- If the inner object is all that is left, because the outer call throws, it stays. -/
example :
    let F : Nat → Nat → Prog := fun _ n => if n = 0 then .call 0 (fun _ => .ret .noBlock) else .ret .obj
    evalR F 2 0 (RW.init 1) =
      some (.exn .badAlloc, ⟨⟨[some ⟨true, some 1⟩], [0, 0], [0]⟩, [(0, 1)]⟩) := by
  decide

/-! ## C89: factories without cycles -/

/-- A larger bound on the depth gives the same result. -/
theorem runP_mono {ev ev' : Nat → RW → Option (Res Nat × RW)} (h : ∀ y s a, ev y s = some a → ev' y s = some a) :
    ∀ (p : Prog) (s : RW) (a : Res Outcome × RW), runP ev p s = some a → runP ev' p s = some a := by
  intro p
  induction p with
  | ret o => intro s a ha; exact ha
  | call y k ih =>
    intro s a ha
    rw [runP] at ha ⊢
    match he : ev y s with
    | none => rw [he] at ha; cases ha
    | some (.ub u, s1) => rw [he] at ha; rw [h y s _ he]; exact ha
    | some (.abort, s1) => rw [he] at ha; rw [h y s _ he]; exact ha
    | some (.ok v, s1) => rw [he] at ha; rw [h y s _ he]; exact ih _ s1 a ha
    | some (.exn v, s1) => rw [he] at ha; rw [h y s _ he]; exact ih _ s1 a ha

theorem evalR_succ (F : Nat → Nat → Prog) : ∀ (d x : Nat) (s : RW) (a : Res Nat × RW),
    evalR F d x s = some a → evalR F (d + 1) x s = some a := by
  intro d
  induction d with
  | zero => intro x s a ha; cases ha
  | succ d ih =>
    intro x s a ha
    rw [evalR] at ha ⊢
    match hg : s.w.get x with
    | none => rw [hg] at ha; exact ha
    | some ⟨f, some j⟩ => rw [hg] at ha; exact ha
    | some ⟨false, none⟩ => rw [hg] at ha; exact ha
    | some ⟨true, none⟩ =>
      rw [hg] at ha
      simp only [if_true] at ha ⊢
      match hp : runP (evalR F d) (F x s.w.calls.length) ⟨{ s.w with calls := s.w.calls ++ [x] }, s.given⟩ with
      | none => rw [hp] at ha; cases ha
      | some (r1, s1) =>
        rw [hp] at ha
        rw [runP_mono (fun y s a => ih y s a) _ _ _ hp]
        exact ha

/-- C89: the bound on the depth does not matter once an evaluation returns. -/
theorem C89_depth {F : Nat → Nat → Prog} {d d' x : Nat} {s : RW} {a : Res Nat × RW} (h : evalR F d x s = some a)
    (hd : d ≤ d') : evalR F d' x s = some a := by
  induction hd with
  | refl => exact h
  | step _ ih => exact evalR_succ F _ x s a ih

/-- What an evaluation of a variable of rank `r` without cycles does: it does not touch the variables of
higher rank, and what has been handed out stays with its variable. -/
structure Calm (rank : Nat → Nat) (r : Nat) (s s' : RW) : Prop where
  get : ∀ y, r < rank y → s'.w.get y = s.w.get y
  count : ∀ y, r < rank y → s'.w.calls.count y = s.w.calls.count y
  given : (∀ y k, (y, k) ∈ s.given → Holds s.w y k) → ∀ y k, (y, k) ∈ s'.given → Holds s'.w y k

theorem Calm.refl {rank : Nat → Nat} {r : Nat} {s : RW} : Calm rank r s s := ⟨fun _ _ => rfl, fun _ _ => rfl, id⟩

/-- Running a factory whose evaluations are of rank below `r`. -/
theorem runP_calm {rank : Nat → Nat} {r : Nat} {ev : Nat → RW → Option (Res Nat × RW)}
    (hev : ∀ y s, rank y < r → Ok s.w → ∃ a s', ev y s = some (a, s') ∧ Good s s' ∧ Calm rank (rank y) s s') :
    ∀ (p : Prog) (s : RW), Below rank r p → Ok s.w → ∃ a s', runP ev p s = some (a, s') ∧ Good s s' ∧
      (∀ y, r ≤ rank y → s'.w.get y = s.w.get y) ∧ (∀ y, r ≤ rank y → s'.w.calls.count y = s.w.calls.count y) ∧
      ((∀ y k, (y, k) ∈ s.given → Holds s.w y k) → ∀ y k, (y, k) ∈ s'.given → Holds s'.w y k) := by
  intro p
  induction p with
  | ret o =>
    intro s _ h
    exact ⟨_, _, rfl, .refl h, fun _ _ => rfl, fun _ _ => rfl, id⟩
  | call y k ih =>
    intro s hb h
    cases hb with
    | call hy hk =>
      obtain ⟨a, s1, h1, h2, h3⟩ := hev y s hy h
      have stop : ∀ a : Res Outcome, runP ev (.call y k) s = some (a, s1) →
          ∃ a s', runP ev (.call y k) s = some (a, s') ∧ Good s s' ∧
            (∀ y, r ≤ rank y → s'.w.get y = s.w.get y) ∧
            (∀ y, r ≤ rank y → s'.w.calls.count y = s.w.calls.count y) ∧
            ((∀ y k, (y, k) ∈ s.given → Holds s.w y k) → ∀ y k, (y, k) ∈ s'.given → Holds s'.w y k) :=
        fun a ha => ⟨a, s1, ha, h2, fun z hz => h3.get z (by omega), fun z hz => h3.count z (by omega), h3.given⟩
      have go : runP ev (.call y k) s = runP ev (k a) s1 →
          ∃ a s', runP ev (.call y k) s = some (a, s') ∧ Good s s' ∧
            (∀ y, r ≤ rank y → s'.w.get y = s.w.get y) ∧
            (∀ y, r ≤ rank y → s'.w.calls.count y = s.w.calls.count y) ∧
            ((∀ y k, (y, k) ∈ s.given → Holds s.w y k) → ∀ y k, (y, k) ∈ s'.given → Holds s'.w y k) := by
        intro he
        obtain ⟨b, s2, g1, g2, g3, g4, g5⟩ := ih a s1 (hk a) h2.ev.ok
        refine ⟨b, s2, by rw [he, g1], h2.trans g2, fun z hz => ?_, fun z hz => ?_, g5 ∘ h3.given⟩
        · rw [g3 z hz]; exact h3.get z (by omega)
        · rw [g4 z hz]; exact h3.count z (by omega)
      match a with
      | .ub u => exact stop (.ub u) (by rw [runP, h1])
      | .abort => exact stop .abort (by rw [runP, h1])
      | .ok v => exact go (by rw [runP, h1])
      | .exn e => exact go (by rw [runP, h1])

/-- An evaluation without cycles: it returns, and calls the factory of its own variable exactly once if
it has not been evaluated before. -/
theorem evalR_calm {rank : Nat → Nat} {F : Nat → Nat → Prog} (hF : Acyclic rank F) :
    ∀ (d x : Nat) (s : RW), rank x < d → Ok s.w → ∃ a s', evalR F d x s = some (a, s') ∧ Good s s' ∧
      Calm rank (rank x) s s' ∧ s'.w.calls.count x = s.w.calls.count x + (if s.w.get x = some ⟨true, none⟩ then 1 else 0) := by
  intro d
  induction d with
  | zero => intro x s hd; omega
  | succ d ih =>
    intro x s hd h
    match hg : s.w.get x with
    | none =>
      have he : evalR F (d + 1) x s = some (.ub .notAlive, s) := by rw [evalR, hg]
      exact ⟨_, _, he, .refl h, .refl, by simp⟩
    | some ⟨f, some k⟩ =>
      have he := evalR_holds (F := F) (d := d) (s := s) ⟨f, hg⟩
      refine ⟨_, _, he, evalR_good F _ _ _ _ _ h he, ⟨fun _ _ => rfl, fun _ _ => rfl, fun hs y j hy => ?_⟩, by simp⟩
      rcases List.mem_append.1 hy with hy | hy
      · exact hs y j hy
      · simp only [List.mem_singleton, Prod.mk.injEq] at hy
        obtain ⟨rfl, rfl⟩ := hy
        exact ⟨f, hg⟩
    | some ⟨false, none⟩ =>
      have he : evalR F (d + 1) x s = some (.exn .badFunctionCall, s) := by rw [evalR, hg]; rfl
      exact ⟨_, _, he, .refl h, .refl, by simp⟩
    | some ⟨true, none⟩ =>
      have hlift : ∀ y s, rank y < rank x → Ok s.w →
          ∃ a s', evalR F d y s = some (a, s') ∧ Good s s' ∧ Calm rank (rank y) s s' := by
        intro y s hy hok
        obtain ⟨a, s', h1, h2, h3, _⟩ := ih y s (by omega) hok
        exact ⟨a, s', h1, h2, h3⟩
      obtain ⟨a, s2, h1, h2, h3, h4, h5⟩ := runP_calm hlift (F x s.w.calls.length)
        ⟨{ s.w with calls := s.w.calls ++ [x] }, s.given⟩ (hF x _) (called_ok h x)
      have he : evalR F (d + 1) x s = some (finish x s.w.calls.length a s2) := by
        rw [evalR, hg]; simp only [if_true, h1]
      have hx2 : s2.w.get x = some ⟨true, none⟩ := by rw [h3 x (Nat.le_refl _)]; exact hg
      have hxl := get_lt hx2
      have hcount : ∀ y, rank x ≤ rank y → s2.w.calls.count y = s.w.calls.count y + (if y = x then 1 else 0) := by
        intro y hy
        rw [h4 y hy]
        simp only [List.count_append, List.count_singleton]
        by_cases hyx : y = x
        · simp [hyx]
        · have : ¬ x = y := fun e => hyx e.symm
          simp [hyx, this]
      have hgood := finish_good h hg h2 a
      -- everything but an object leaves the variables as they are
      have same : ∀ (b : Res Nat) (s' : RW), finish x s.w.calls.length a s2 = (b, s') → s'.w.lz = s2.w.lz →
          s'.w.calls = s2.w.calls → s'.given = s2.given →
          ∃ a s', evalR F (d + 1) x s = some (a, s') ∧ Good s s' ∧ Calm rank (rank x) s s' ∧
            s'.w.calls.count x = s.w.calls.count x + 1 := by
        intro b s' hb hl hc hgv
        have hget : ∀ y, s'.w.get y = s2.w.get y := fun y => by simp only [World.get, hl]
        refine ⟨b, s', by rw [he, hb], by rw [hb] at hgood; exact hgood, ⟨fun y hy => ?_, fun y hy => ?_, fun hs y k hy => ?_⟩, ?_⟩
        · rw [hget y, h3 y (by omega)]; rfl
        · rw [hc, hcount y (by omega), if_neg (fun e => by subst e; omega)]; rfl
        · rw [hgv] at hy
          obtain ⟨b', hb'⟩ := h5 hs y k hy
          exact ⟨b', by rw [hget y]; exact hb'⟩
        · rw [hc, hcount x (Nat.le_refl _), if_pos rfl]
      simp only [if_true]
      match a with
      | .ok .obj =>
        refine ⟨_, _, he, hgood, ⟨fun y hy => ?_, fun y hy => ?_, fun hs y k hy => ?_⟩, ?_⟩
        · rw [drop_get, get_set hxl, if_neg (fun e => by subst e; omega), h3 y (by omega)]; rfl
        · rw [drop_calls]
          show s2.w.calls.count y = _
          rw [hcount y (by omega), if_neg (fun e => by subst e; omega)]; rfl
        · rcases List.mem_append.1 hy with hy | hy
          · obtain ⟨b, hb⟩ := h5 hs y k hy
            refine ⟨b, ?_⟩
            rw [drop_get, get_set hxl, if_neg]
            · exact hb
            · intro e; subst e; rw [hx2] at hb; cases hb
          · simp only [List.mem_singleton, Prod.mk.injEq] at hy
            obtain ⟨rfl, rfl⟩ := hy
            exact ⟨true, by rw [drop_get, get_set hxl, if_pos rfl]⟩
        · rw [drop_calls]
          show s2.w.calls.count x = _
          rw [hcount x (Nat.le_refl _), if_pos rfl]
      | .ok .null => exact same _ _ rfl rfl rfl rfl
      | .ok (.throws e) => exact same _ _ rfl rfl rfl rfl
      | .ok .noBlock => exact same _ _ rfl rfl rfl rfl
      | .exn e => exact same _ _ rfl rfl rfl rfl
      | .ub u => exact same _ _ rfl rfl rfl rfl
      | .abort => exact same _ _ rfl rfl rfl rfl

/-- C89, for factories without cycles: after any evaluations by the client, an evaluation of `x`
returns (the depth of nested evaluations is at most the rank), the factory of `x` is called exactly once if
`x` has not been evaluated before and not at all otherwise, and every object that any evaluation has
returned so far, to the client or to a factory, is still there and belongs to its variable. -/
theorem C89_acyclic_partial {rank : Nat → Nat} {F : Nat → Nat → Prog} (hF : Acyclic rank F) {n : Nat} {s : RW}
    (h0 : Evals F (RW.init n) s) (x : Nat) :
    ∃ a s', evalR F (rank x + 1) x s = some (a, s') ∧
      s'.w.calls.count x = s.w.calls.count x + (if s.w.get x = some ⟨true, none⟩ then 1 else 0) ∧
      ∀ y k, (y, k) ∈ s'.given → Holds s'.w y k ∧ k ∉ s'.w.deleted := by
  have hg := h0.good (init_ok n)
  have hs : ∀ {s1 s2 : RW}, Evals F s1 s2 → Ok s1.w → (∀ y k, (y, k) ∈ s1.given → Holds s1.w y k) →
      ∀ y k, (y, k) ∈ s2.given → Holds s2.w y k := by
    intro s1 s2 h
    induction h with
    | nil => intro _ h; exact h
    | @cons d y s1 r s2 s3 he _ ih =>
      intro hok hs
      have h1 := evalR_good F _ _ _ _ _ hok he
      refine ih h1.ev.ok ?_
      obtain ⟨a, s', g1, _, g3, _⟩ := evalR_calm hF (rank y + 1) y s1 (Nat.lt_succ_self _) hok
      have e1 := C89_depth g1 (Nat.le_max_right d (rank y + 1))
      rw [C89_depth he (Nat.le_max_left d (rank y + 1))] at e1
      cases e1
      exact g3.given hs
  obtain ⟨a, s', g1, g2, g3, g4⟩ := evalR_calm hF (rank x + 1) x s (Nat.lt_succ_self _) hg.ev.ok
  refine ⟨a, s', g1, g4, fun y k hy => ?_⟩
  have := g3.given (hs h0 (init_ok n) (fun y k hy => by cases hy)) y k hy
  exact ⟨this, (g2.ev.ok.held y k this).1⟩

/-- C89: factories that evaluate nothing are those of the basic model (C48, C49). -/
theorem C89_plain (f : Nat → Outcome) (d x : Nat) (s : RW) :
    (evalR (fun _ n => .ret (f n)) (d + 1) x s).map (fun p => (p.1, p.2.w)) = some (eval f x s.w) := by
  rw [evalR, eval]
  match hg : s.w.get x with
  | none => rfl
  | some ⟨b, some k⟩ => rfl
  | some ⟨false, none⟩ => rfl
  | some ⟨true, none⟩ =>
    simp only [if_true, runP]
    have hg' : World.get { s.w with calls := s.w.calls ++ [x] } x = some ⟨true, none⟩ := hg
    match hf : f s.w.calls.length with
    | .obj => simp only [finish, hg']; rfl
    | .null => rfl
    | .throws e => rfl
    | .noBlock => rfl

/-- Variable 2 evaluates 1 and 0, variable 1 evaluates 0 twice. -/
def chain : Nat → Nat → Prog
  | 1, _ => .call 0 fun _ => .call 0 fun _ => .ret .obj
  | 2, _ => .call 1 fun r => match r with
    | .ok _ => .call 0 fun _ => .ret .obj
    | _ => .ret .null
  | _, _ => .ret .obj

example : Acyclic id chain := by
  intro x n
  match x with
  | 0 => exact .ret
  | 1 => exact .call (by decide) fun _ => .call (by decide) fun _ => .ret
  | 2 => exact .call (by decide) fun r => (by cases r <;> first | exact .call (by decide) fun _ => .ret | exact .ret)
  | x + 3 => exact .ret

example : evalR chain 3 2 (RW.init 3) = some (.ok 0, ⟨⟨[some ⟨true, some 2⟩, some ⟨true, some 1⟩, some ⟨true, some 0⟩],
    [2, 1, 0], []⟩, [(0, 2), (0, 2), (1, 1), (0, 2), (2, 0)]⟩) := by decide

end Helper.Lazy
