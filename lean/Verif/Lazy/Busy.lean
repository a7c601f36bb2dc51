import Verif.Lazy.Props
set_option linter.unusedSectionVars false
/-!
# Property C123: factories that construct, copy, assign, move and destroy Lazy variables (lazy.hpp:47)

A factory may do to Lazy variables whatever a client may do, and evaluate them; call `n` of the whole run makes object `n`. While
`_func()` of line 47 runs, changing or destroying the variable changes or destroys the function that is running: this is taken to be
undefined. Reading it, as a copy does, is not.
-/
namespace Helper.Lazy.Busy

/-- Operations on variables other than evaluations. -/
inductive Act where
  | construct (func : Bool)
  | copy (y : Nat)
  | move (y : Nat)
  | assign (x y : Nat)
  | moveAssign (x y : Nat)
  | destroy (x : Nat)
deriving DecidableEq, Repr

def Act.op : Act → Op
  | .construct f => .construct f
  | .copy y => .copy y
  | .move y => .move y
  | .assign x y => .assign x y
  | .moveAssign x y => .moveAssign x y
  | .destroy x => .destroy x

/-- The variables whose function is changed. -/
def Act.changes : Act → List Nat
  | .construct _ => []
  | .copy _ => []
  | .move y => [y]
  | .assign x _ => [x]
  | .moveAssign x y => [x, y]
  | .destroy x => [x]

/-- What a factory does in one call. -/
inductive Prog where
  | ret (o : Outcome)
  | call (y : Nat) (k : Res Nat → Prog)
  | act (a : Act) (k : Prog)

/-- The variables, and the objects that factories have returned. -/
structure BW where
  w : World
  born : List Nat
deriving DecidableEq, Repr

/-- An operation while the variables `busy` are being evaluated. -/
def act (busy : List Nat) (a : Act) (w : World) : Res Unit × World :=
  if a.changes.any fun x => decide (x ∈ busy) then (.ub .dangling, w)
  else
    match step (fun _ => .null) a.op w with
    | (.ub u, w') => (.ub u, w')
    | (_, w') => (.ok (), w')

/-- Running a factory; `ev` evaluates a variable. `none`: not finished. -/
def runB (ev : Nat → BW → Option (Res Nat × BW)) (busy : List Nat) : Prog → BW → Option (Res Outcome × BW)
  | .ret o, s => some (.ok o, s)
  | .call y k, s =>
    match ev y s with
    | none => none
    | some (.ub u, s') => some (.ub u, s')
    | some (.abort, s') => some (.abort, s')
    | some (r, s') => runB ev busy (k r) s'
  | .act a k, s =>
    match act busy a s.w with
    | (.ok (), w') => runB ev busy k { s with w := w' }
    | (.ub u, w') => some (.ub u, { s with w := w' })
    | (.exn e, w') => some (.exn e, { s with w := w' })
    | (.abort, w') => some (.abort, { s with w := w' })

/-- The end of `_obj.reset(_func()); return *_obj;`: call `n` for `x` has ended in `r`. `reset` gives up the object that the variable owns by
then, after taking the new one; it changes nothing if it throws. -/
def finish (x n : Nat) : Res Outcome → BW → Res Nat × BW
  | .ok .obj, s =>
    (.ok n, ⟨(s.w.set x (some ⟨true, some n⟩)).drop ((s.w.get x).bind Lz.obj), s.born ++ [n]⟩)
  | .ok .null, s => (.ub .nullDeref, s)
  | .ok (.throws e), s => (.exn e, s)
  | .ok .noBlock, s => (.exn .badAlloc, ⟨{ s.w with deleted := s.w.deleted ++ [n] }, s.born ++ [n]⟩)
  | .exn e, s => (.exn e, s)
  | .ub u, s => (.ub u, s)
  | .abort, s => (.abort, s)

/-- lazy.hpp:47 `operator()`, with factories `F x n` (variable, number of the call). The first argument bounds the depth of nested
evaluations; `none`: the bound was met. -/
def evalB (F : Nat → Nat → Prog) : Nat → List Nat → Nat → BW → Option (Res Nat × BW)
  | 0, _, _, _ => none
  | d + 1, busy, x, s =>
    match s.w.get x with
    | none => some (.ub .notAlive, s)
    | some z =>
      match z.obj with
      | some k => some (.ok k, s)
      | none =>
        if z.func then
          match runB (evalB F d (x :: busy)) (x :: busy) (F x s.w.calls.length) ⟨{ s.w with calls := s.w.calls ++ [x] }, s.born⟩ with
          | none => none
          | some (r, s') => some (finish x s.w.calls.length r s')
        else some (.exn .badFunctionCall, s)

/-- What a client does; undefined behaviour ends it. -/
inductive Reaches (F : Nat → Nat → Prog) : BW → BW → Prop
  | refl {s} : Reaches F s s
  | eval {s s1 s2 : BW} {d x : Nat} {r : Res Nat} : Reaches F s s1 → evalB F d [] x s1 = some (r, s2) → (∀ u, r ≠ .ub u) → Reaches F s s2
  | act {s s1 : BW} {a : Act} {w' : World} : Reaches F s s1 → act [] a s1.w = (.ok (), w') → Reaches F s ⟨w', s1.born⟩

def BW.init : BW := ⟨World.init, []⟩

/-! ## Ownership -/

/-- The outcomes of the calls, as far as objects are concerned. -/
def outcome (born : List Nat) (k : Nat) : Outcome := if k ∈ born then .obj else .null

theorem made_iff {born : List Nat} {k : Nat} : Made (outcome born) k ↔ k ∈ born := by
  by_cases h : k ∈ born <;> simp [Made, outcome, h]

theorem obj_iff {born : List Nat} {k : Nat} : outcome born k = .obj ↔ k ∈ born := by
  by_cases h : k ∈ born <;> simp [outcome, h]

structure Inv (s : BW) : Prop where
  inv : Lazy.Inv (outcome s.born) s.w
  lt : ∀ k ∈ s.born, k < s.w.calls.length

/-- From `s` to `s'` inside a call: objects have been made only by calls that began since, and the variables being evaluated are still
there, with their function. -/
structure Keeps (busy : List Nat) (s s' : BW) : Prop where
  inv : Inv s'
  calls : s.w.calls.length ≤ s'.w.calls.length
  born : ∀ k, k < s.w.calls.length → (k ∈ s'.born ↔ k ∈ s.born)
  busy : ∀ x ∈ busy, ∀ z, s.w.get x = some z → ∃ z', s'.w.get x = some z' ∧ z'.func = z.func

theorem Keeps.refl {busy : List Nat} {s : BW} (h : Inv s) : Keeps busy s s :=
  ⟨h, Nat.le_refl _, fun _ _ => Iff.rfl, fun _ _ z hz => ⟨z, hz, rfl⟩⟩

theorem Keeps.trans {busy : List Nat} {s s1 s2 : BW} (h : Keeps busy s s1) (h' : Keeps busy s1 s2) : Keeps busy s s2 := by
  refine ⟨h'.inv, Nat.le_trans h.calls h'.calls, fun k hk => ?_, fun x hx z hz => ?_⟩
  · rw [h'.born k (Nat.lt_of_lt_of_le hk h.calls), h.born k hk]
  · obtain ⟨z1, h1, h2⟩ := h.busy x hx z hz
    obtain ⟨z2, h3, h4⟩ := h'.busy x hx z1 h1
    exact ⟨z2, h3, h4.trans h2⟩

theorem act_eq {busy : List Nat} {a : Act} {w : World} : (act busy a w).2 = w ∨
    ((∀ x ∈ a.changes, x ∉ busy) ∧ (act busy a w).2 = (step (fun _ => .null) a.op w).2) := by
  unfold act
  split
  · exact .inl rfl
  · rename_i h
    refine .inr ⟨fun x hx hb => h ?_, ?_⟩
    · rw [List.any_eq_true]; exact ⟨x, hx, by simpa using hb⟩
    · split <;> (rename_i e; rw [e])

theorem op_f (f g : Nat → Outcome) (a : Act) (w : World) : step f a.op w = step g a.op w := by cases a <;> rfl

theorem op_calls (a : Act) (w : World) : (step (fun _ => .null) a.op w).2.calls = w.calls := by
  cases a with
  | construct f => rfl
  | copy y => simp only [Act.op, step]; split <;> rfl
  | move y => simp only [Act.op, step]; split <;> rfl
  | assign x y => simp only [Act.op, step]; split <;> simp [World.set]
  | moveAssign x y =>
    simp only [Act.op, step]
    split
    · split <;> simp [World.set]
    · rfl
  | destroy x => simp only [Act.op, step]; split <;> simp [World.set]

theorem touches_changes (a : Act) (x : Nat) : touches x a.op = true → x ∈ a.changes := by
  cases a <;> simp [Act.op, touches, Act.changes] <;> omega

theorem act_keeps {busy : List Nat} {s : BW} (h : Inv s) (a : Act) : Keeps busy s { s with w := (act busy a s.w).2 } := by
  rcases act_eq (busy := busy) (a := a) (w := s.w) with e | ⟨hb, e⟩
  · rw [e]; exact .refl h
  · rw [e]
    refine ⟨⟨?_, ?_⟩, ?_, fun _ _ => Iff.rfl, ?_⟩
    · show Lazy.Inv (outcome s.born) (step _ a.op s.w).2
      rw [op_f _ (outcome s.born)]
      exact step_inv h.inv a.op
    · intro k hk
      show k < (step _ a.op s.w).2.calls.length
      rw [op_calls]; exact h.lt k hk
    · show _ ≤ (step _ a.op s.w).2.calls.length
      rw [op_calls]; exact Nat.le_refl _
    · intro x hx z hz
      refine ⟨z, ?_, rfl⟩
      show (step _ a.op s.w).2.get x = some z
      rw [step_get (fun _ => .null) s.w (get_lt hz) ?_ ?_]
      · exact hz
      · cases ht : touches x a.op with
        | false => rfl
        | true => exact absurd hx (hb x (touches_changes a x ht))
      · cases a <;> simp [Act.op]

theorem begin_inv {s : BW} (h : Inv s) (x : Nat) : Inv ⟨{ s.w with calls := s.w.calls ++ [x] }, s.born⟩ := by
  have hlt : ∀ k, k < s.w.calls.length → k < (s.w.calls ++ [x]).length := fun k hk => by simp; omega
  refine ⟨⟨fun k hk => ?_, h.inv.nodup, fun k hk => ?_, fun k _ hm => ?_⟩, fun k hk => hlt k (h.lt k hk)⟩
  · obtain ⟨h1, h2, h3⟩ := h.inv.held k hk
    exact ⟨h1, hlt k h2, h3⟩
  · obtain ⟨h1, h2⟩ := h.inv.deleted k hk
    exact ⟨hlt k h1, h2⟩
  · exact h.inv.all k (h.lt k (made_iff.1 hm)) hm

/-- What is known when a call returns. -/
structure Returns (x n : Nat) (s : BW) : Prop where
  inv : Inv s
  fresh : n ∉ s.born
  lt : n < s.w.calls.length
  alive : ∃ z, s.w.get x = some z ∧ z.func = true

theorem finish_inv {x n : Nat} {s : BW} (h : Returns x n s) (r : Res Outcome) : Inv (finish x n r s).2 := by
  obtain ⟨⟨hi, hb⟩, hn, hl, z, hz, -⟩ := h
  have hnh : ¬ Held s.w n := fun hh => hn (obj_iff.1 (hi.held n hh).2.2)
  have hnd : n ∉ s.w.deleted := fun hd => hn (made_iff.1 (hi.deleted n hd).2)
  have hlt : ∀ k ∈ s.born ++ [n], k < s.w.calls.length := by
    intro k hk
    rcases List.mem_append.1 hk with hk | hk
    · exact hb k hk
    · simp at hk; omega
  cases r with
  | exn e => exact ⟨hi, hb⟩
  | ub u => exact ⟨hi, hb⟩
  | abort => exact ⟨hi, hb⟩
  | ok o =>
    cases o with
    | null => exact ⟨hi, hb⟩
    | throws e => exact ⟨hi, hb⟩
    | noBlock =>
      show Inv ⟨{ s.w with deleted := s.w.deleted ++ [n] }, s.born ++ [n]⟩
      refine ⟨⟨fun k hk => ?_, nodup_snoc hi.nodup hnd, fun k hk => ?_, fun k hk hm => ?_⟩, hlt⟩
      · obtain ⟨h1, h2, h3⟩ := hi.held k hk
        refine ⟨?_, h2, obj_iff.2 (List.mem_append_left _ (obj_iff.1 h3))⟩
        show k ∉ s.w.deleted ++ [n]
        simp only [List.mem_append, List.mem_singleton, not_or]
        exact ⟨h1, fun e => hnh (e ▸ hk)⟩
      · rcases List.mem_append.1 hk with hk | hk
        · obtain ⟨h1, h2⟩ := hi.deleted k hk
          exact ⟨h1, made_iff.2 (List.mem_append_left _ (made_iff.1 h2))⟩
        · simp at hk; subst hk; exact ⟨hl, made_iff.2 (by simp)⟩
      · rcases List.mem_append.1 (made_iff.1 hm) with hm | hm
        · rcases hi.all k hk (made_iff.2 hm) with h1 | h1
          · exact .inl h1
          · exact .inr (List.mem_append_left _ h1)
        · exact .inr (List.mem_append_right _ hm)
    | obj =>
      have hx := get_lt hz
      have h1 : ∀ k, Held (s.w.set x (some ⟨true, some n⟩)) k → k = n ∨ Held s.w k := by
        rintro k ⟨y, zy, hy, hk⟩
        rw [get_set hx] at hy
        split at hy
        · cases hy; simp at hk; exact .inl hk.symm
        · exact .inr ⟨y, zy, hy, hk⟩
      have h2 : ∀ k, Held s.w k → Held (s.w.set x (some ⟨true, some n⟩)) k ∨ (s.w.get x).bind Lz.obj = some k := by
        rintro k ⟨y, zy, hy, hk⟩
        by_cases e : y = x
        · subst e; right; rw [hy]; exact hk
        · left; exact ⟨y, zy, by rw [get_set hx, if_neg e]; exact hy, hk⟩
      have h3 : Held (s.w.set x (some ⟨true, some n⟩)) n := ⟨x, ⟨true, some n⟩, by rw [get_set hx, if_pos rfl], rfl⟩
      have h4 : ∀ k, (s.w.get x).bind Lz.obj = some k → Held s.w k := by
        intro k hk
        rw [hz] at hk
        exact ⟨x, z, hz, hk⟩
      refine ⟨?_, by simpa [finish, World.set] using hlt⟩
      show Lazy.Inv (outcome (s.born ++ [n])) ((s.w.set x (some ⟨true, some n⟩)).drop ((s.w.get x).bind Lz.obj))
      generalize (s.w.get x).bind Lz.obj = old at h2 h4
      have hd0 : (s.w.set x (some ⟨true, some n⟩)).deleted = s.w.deleted := rfl
      have hc0 : (s.w.set x (some ⟨true, some n⟩)).calls = s.w.calls := rfl
      have hold : ∀ k, k ∉ s.w.deleted → Held (s.w.set x (some ⟨true, some n⟩)) k →
          k < s.w.calls.length ∧ outcome (s.born ++ [n]) k = .obj := by
        intro k _ hk
        rcases h1 k hk with e | hk
        · subst e; exact ⟨hl, obj_iff.2 (by simp)⟩
        · obtain ⟨_, h5, h6⟩ := hi.held k hk
          exact ⟨h5, obj_iff.2 (List.mem_append_left _ (obj_iff.1 h6))⟩
      have hnot : ∀ k, Held (s.w.set x (some ⟨true, some n⟩)) k → k ∉ s.w.deleted := by
        intro k hk
        rcases h1 k hk with e | hk
        · subst e; exact hnd
        · exact (hi.held k hk).1
      have hdel : ∀ k ∈ s.w.deleted, k < s.w.calls.length ∧ Made (outcome (s.born ++ [n])) k := by
        intro k hk
        obtain ⟨h5, h6⟩ := hi.deleted k hk
        exact ⟨h5, made_iff.2 (List.mem_append_left _ (made_iff.1 h6))⟩
      have hall : ∀ k, k < s.w.calls.length → Made (outcome (s.born ++ [n])) k →
          Held (s.w.set x (some ⟨true, some n⟩)) k ∨ k ∈ s.w.deleted ∨ old = some k := by
        intro k hk hm
        rcases List.mem_append.1 (made_iff.1 hm) with hm | hm
        · rcases hi.all k hk (made_iff.2 hm) with h5 | h5
          · rcases h2 k h5 with h6 | h6
            · exact .inl h6
            · exact .inr (.inr h6)
          · exact .inr (.inl h5)
        · simp at hm; subst hm; exact .inl h3
      rcases drop_deleted (s.w.set x (some ⟨true, some n⟩)) old with ⟨k0, hk0, hn0, he⟩ | ⟨hk0, he⟩
      · have h5 := hi.held k0 (h4 k0 hk0)
        refine ⟨fun k hk => ?_, ?_, fun k hk => ?_, fun k hk hm => ?_⟩
        · rw [drop_held] at hk
          rw [he, hd0, drop_calls, hc0]
          refine ⟨?_, hold k (hnot k hk) hk⟩
          simp only [List.mem_append, List.mem_singleton, not_or]
          exact ⟨hnot k hk, fun e => hn0 (e ▸ hk)⟩
        · rw [he, hd0]; exact nodup_snoc hi.nodup h5.1
        · rw [he, hd0] at hk
          rw [drop_calls, hc0]
          rcases List.mem_append.1 hk with hk | hk
          · exact hdel k hk
          · simp at hk; subst hk
            exact ⟨h5.2.1, made_iff.2 (List.mem_append_left _ (obj_iff.1 h5.2.2))⟩
        · rw [drop_calls, hc0] at hk
          rw [drop_held, he, hd0]
          rcases hall k hk hm with h6 | h6 | h6
          · exact .inl h6
          · exact .inr (List.mem_append_left _ h6)
          · rw [h6] at hk0; cases hk0; exact .inr (by simp)
      · refine ⟨fun k hk => ?_, ?_, fun k hk => ?_, fun k hk hm => ?_⟩
        · rw [drop_held] at hk
          rw [he, hd0, drop_calls, hc0]
          exact ⟨hnot k hk, hold k (hnot k hk) hk⟩
        · rw [he, hd0]; exact hi.nodup
        · rw [he, hd0] at hk
          rw [drop_calls, hc0]
          exact hdel k hk
        · rw [drop_calls, hc0] at hk
          rw [drop_held, he, hd0]
          rcases hall k hk hm with h6 | h6 | h6
          · exact .inl h6
          · exact .inr h6
          · exact .inl (hk0 k h6)

theorem finish_calls (x n : Nat) (r : Res Outcome) (s : BW) : (finish x n r s).2.w.calls = s.w.calls := by
  cases r with
  | ok o => cases o <;> simp [finish, World.set]
  | _ => rfl

theorem finish_born (x n : Nat) (r : Res Outcome) (s : BW) (k : Nat) (h : k ≠ n) :
    k ∈ (finish x n r s).2.born ↔ k ∈ s.born := by
  cases r with
  | ok o => cases o <;> simp [finish, h]
  | _ => exact Iff.rfl

theorem finish_get {x n : Nat} {r : Res Outcome} {s : BW} {y : Nat} {z : Lz} (ha : ∃ z, s.w.get x = some z ∧ z.func = true)
    (h : s.w.get y = some z) : ∃ z', (finish x n r s).2.w.get y = some z' ∧ z'.func = z.func := by
  obtain ⟨z0, h0, h0'⟩ := ha
  cases r with
  | ok o =>
    cases o with
    | obj =>
      by_cases e : y = x
      · subst e
        rw [h0] at h; cases h
        exact ⟨⟨true, some n⟩, by simp [finish, get_set (get_lt h0)], h0'.symm⟩
      · exact ⟨z, by simp [finish, get_set (get_lt h0), e, h], rfl⟩
    | null => exact ⟨z, h, rfl⟩
    | throws _ => exact ⟨z, h, rfl⟩
    | noBlock => exact ⟨z, h, rfl⟩
  | exn _ => exact ⟨z, h, rfl⟩
  | ub _ => exact ⟨z, h, rfl⟩
  | abort => exact ⟨z, h, rfl⟩

theorem Keeps.weaken {b b' : List Nat} {s s' : BW} (h : Keeps b s s') (hs : ∀ x ∈ b', x ∈ b) : Keeps b' s s' :=
  ⟨h.inv, h.calls, h.born, fun x hx => h.busy x (hs x hx)⟩

theorem run_keeps {ev : Nat → BW → Option (Res Nat × BW)} {busy : List Nat}
    (hev : ∀ y s r s', Inv s → ev y s = some (r, s') → Keeps busy s s') :
    ∀ (p : Prog) {s : BW} {r : Res Outcome} {s' : BW}, Inv s → runB ev busy p s = some (r, s') → Keeps busy s s' := by
  intro p
  induction p with
  | ret o => intro s r s' h he; simp only [runB] at he; cases he; exact .refl h
  | call y k ih =>
    intro s r s' h he
    simp only [runB] at he
    cases hy : ev y s with
    | none => rw [hy] at he; simp at he
    | some q =>
      obtain ⟨q, s1⟩ := q
      have hk := hev y s q s1 h hy
      rw [hy] at he
      cases q with
      | ub u => cases he; exact hk
      | abort => cases he; exact hk
      | ok a => exact hk.trans (ih _ hk.inv he)
      | exn e => exact hk.trans (ih _ hk.inv he)
  | act a k ih =>
    intro s r s' h he
    simp only [runB] at he
    have hk := act_keeps (busy := busy) h a
    cases hy : act busy a s.w with
    | mk q w' =>
      rw [hy] at he hk
      cases q with
      | ub u => cases he; exact hk
      | abort => cases he; exact hk
      | exn e => cases he; exact hk
      | ok a => exact hk.trans (ih hk.inv he)

theorem eval_keeps (F : Nat → Nat → Prog) : ∀ (d : Nat) (busy : List Nat) (x : Nat) (s : BW) (r : Res Nat) (s' : BW),
    Inv s → evalB F d busy x s = some (r, s') → Keeps busy s s' := by
  intro d
  induction d with
  | zero => intro busy x s r s' _ he; simp [evalB] at he
  | succ d ih =>
    intro busy x s r s' h he
    simp only [evalB] at he
    cases hx : s.w.get x with
    | none => rw [hx] at he; cases he; exact .refl h
    | some z =>
      rw [hx] at he
      obtain ⟨fn, ob⟩ := z
      cases ob with
      | some k => cases he; exact .refl h
      | none =>
        cases fn with
        | false => cases he; exact .refl h
        | true =>
          simp only [if_true] at he
          cases hr : runB (evalB F d (x :: busy)) (x :: busy) (F x s.w.calls.length)
              ⟨{ s.w with calls := s.w.calls ++ [x] }, s.born⟩ with
          | none => rw [hr] at he; simp at he
          | some q =>
            obtain ⟨q, s1⟩ := q
            rw [hr] at he
            simp only [Option.some.injEq] at he
            have e : s' = (finish x s.w.calls.length q s1).2 := by rw [he]
            subst e
            have hk := run_keeps (fun y s r s' h he => ih (x :: busy) y s r s' h he) _ (begin_inv h x) hr
            have hc := hk.calls
            simp only [List.length_append, List.length_singleton] at hc
            have hn : s.w.calls.length ∉ s1.born := by
              intro hm
              have := (hk.born s.w.calls.length (by simp)).1 hm
              exact absurd (h.lt _ this) (Nat.lt_irrefl _)
            have ha : ∃ z, s1.w.get x = some z ∧ z.func = true := hk.busy x (by simp) ⟨true, none⟩ hx
            have hf := finish_inv ⟨hk.inv, hn, by omega, ha⟩ q
            refine ⟨hf, ?_, fun k hk' => ?_, fun y hy z hz => ?_⟩
            · rw [finish_calls]; omega
            · rw [finish_born _ _ _ _ _ (by omega)]
              exact hk.born k (by simp; omega)
            · obtain ⟨z1, h1, h2⟩ := hk.busy y (List.mem_cons_of_mem _ hy) z hz
              obtain ⟨z2, h3, h4⟩ := finish_get (r := q) (n := s.w.calls.length) ha h1
              exact ⟨z2, h3, h4.trans h2⟩

theorem init_inv : Inv BW.init := ⟨Lazy.init_inv _, by simp [BW.init]⟩

theorem reaches_inv {F : Nat → Nat → Prog} {s s' : BW} (h : Inv s) (hr : Reaches F s s') : Inv s' := by
  induction hr with
  | refl => exact h
  | eval _ he _ ih => exact (eval_keeps F _ _ _ _ _ _ ih he).inv
  | act _ he ih =>
    rename_i s1 a w' _
    have := (act_keeps (busy := []) ih a).inv
    rw [he] at this
    exact this

/-! ## Property C123 -/

/-- Whatever the factories do to Lazy variables, every object that one returned is owned by a variable or has been deleted, not both, and
none is deleted twice. -/
theorem C123_ownership (F : Nat → Nat → Prog) (s : BW) (h : Reaches F BW.init s) :
    s.w.deleted.Nodup ∧ ∀ k,
      (k ∈ s.born ↔ (∃ x z, s.w.get x = some z ∧ z.obj = some k) ∨ k ∈ s.w.deleted) ∧
      ¬ ((∃ x z, s.w.get x = some z ∧ z.obj = some k) ∧ k ∈ s.w.deleted) := by
  have hi := reaches_inv init_inv h
  refine ⟨hi.inv.nodup, fun k => ⟨⟨fun hk => hi.inv.all k (hi.lt k hk) (made_iff.2 hk), ?_⟩, ?_⟩⟩
  · rintro (hk | hk)
    · exact obj_iff.1 (hi.inv.held k hk).2.2
    · exact made_iff.1 (hi.inv.deleted k hk).2
  · rintro ⟨h1, h2⟩
    exact (hi.inv.held k h1).1 h2

/-- Once no variable is left, each of those objects has been deleted exactly once. -/
theorem C123_noLeak (F : Nat → Nat → Prog) (s : BW) (h : Reaches F BW.init s) (hx : ∀ x, s.w.get x = none) (k : Nat) (hk : k ∈ s.born) :
    s.w.deleted.count k = 1 := by
  obtain ⟨hn, ho⟩ := C123_ownership F s h
  rcases (ho k).1.1 hk with ⟨x, z, h1, _⟩ | hd
  · rw [hx] at h1; cases h1
  · have h1 := List.nodup_iff_count.1 hn k
    have h2 := List.count_pos_iff.2 hd
    omega

/-- A variable that owns an object gives that, without a call. -/
theorem eval_holds {F : Nat → Nat → Prog} {d : Nat} {busy : List Nat} {x k : Nat} {s : BW} {z : Lz}
    (h : s.w.get x = some z) (hk : z.obj = some k) : evalB F (d + 1) busy x s = some (.ok k, s) := by
  simp [evalB, h, hk]

theorem eval_ok {F : Nat → Nat → Prog} {d : Nat} {busy : List Nat} {x k : Nat} {s s' : BW} (hi : Inv s)
    (h : evalB F d busy x s = some (.ok k, s')) : ∃ z, s'.w.get x = some z ∧ z.obj = some k := by
  cases d with
  | zero => simp [evalB] at h
  | succ d =>
    simp only [evalB] at h
    cases hx : s.w.get x with
    | none => rw [hx] at h; cases h
    | some z =>
      rw [hx] at h
      obtain ⟨fn, ob⟩ := z
      cases ob with
      | some j => cases h; exact ⟨_, hx, rfl⟩
      | none =>
        cases fn with
        | false => cases h
        | true =>
          simp only [if_true] at h
          cases hr : runB (evalB F d (x :: busy)) (x :: busy) (F x s.w.calls.length)
              ⟨{ s.w with calls := s.w.calls ++ [x] }, s.born⟩ with
          | none => rw [hr] at h; simp at h
          | some q =>
            obtain ⟨q, s1⟩ := q
            rw [hr] at h
            have hk := run_keeps (fun y s r s' h he => eval_keeps F d (x :: busy) y s r s' h he) _ (begin_inv hi x) hr
            obtain ⟨z1, h1, -⟩ := hk.busy x (by simp) ⟨true, none⟩ hx
            cases q with
            | ok o =>
              cases o with
              | obj =>
                simp only [finish, Option.some.injEq, Prod.mk.injEq, Res.ok.injEq] at h
                obtain ⟨rfl, rfl⟩ := h
                exact ⟨⟨true, some s.w.calls.length⟩, by simp [get_set (get_lt h1)], rfl⟩
              | _ => simp [finish] at h
            | _ => simp [finish] at h

/-- The program does not change `x`. -/
inductive Spares (x : Nat) : Prog → Prop
  | ret (o) : Spares x (.ret o)
  | call (y) {k} : (∀ r, Spares x (k r)) → Spares x (.call y k)
  | act {a k} : x ∉ a.changes → Spares x k → Spares x (.act a k)

theorem act_holds {busy : List Nat} {a : Act} {w : World} {x k : Nat} {z : Lz} (hz : w.get x = some z) (hk : z.obj = some k)
    (hx : x ∉ a.changes) : ∃ z, (act busy a w).2.get x = some z ∧ z.obj = some k := by
  rcases act_eq (busy := busy) (a := a) (w := w) with e | ⟨-, e⟩
  · rw [e]; exact ⟨z, hz, hk⟩
  · rw [e, step_get (fun _ => .null) w (get_lt hz) ?_ ?_]
    · exact ⟨z, hz, hk⟩
    · cases ht : touches x a.op with
      | false => rfl
      | true => exact absurd (touches_changes a x ht) hx
    · cases a <;> simp [Act.op]

theorem run_holds {ev : Nat → BW → Option (Res Nat × BW)} {busy : List Nat} {x k : Nat}
    (hev : ∀ y s r s', (∃ z, s.w.get x = some z ∧ z.obj = some k) → ev y s = some (r, s') → ∃ z, s'.w.get x = some z ∧ z.obj = some k) :
    ∀ (p : Prog), Spares x p → ∀ {s : BW} {r : Res Outcome} {s' : BW}, (∃ z, s.w.get x = some z ∧ z.obj = some k) →
      runB ev busy p s = some (r, s') → ∃ z, s'.w.get x = some z ∧ z.obj = some k := by
  intro p hp
  induction hp with
  | ret o => intro s r s' h he; simp only [runB] at he; cases he; exact h
  | call y _ ih =>
    intro s r s' h he
    simp only [runB] at he
    cases hy : ev y s with
    | none => rw [hy] at he; simp at he
    | some q =>
      obtain ⟨q, s1⟩ := q
      have hk := hev y s q s1 h hy
      rw [hy] at he
      cases q with
      | ub u => cases he; exact hk
      | abort => cases he; exact hk
      | ok a => exact ih _ hk he
      | exn e => exact ih _ hk he
  | @act a k' hx _ ih =>
    intro s r s' h he
    simp only [runB] at he
    obtain ⟨z, h1, h2⟩ := h
    have hk := act_holds (busy := busy) (a := a) h1 h2 hx
    cases hy : act busy a s.w with
    | mk q w' =>
      rw [hy] at he hk
      cases q with
      | ub u => cases he; exact hk
      | abort => cases he; exact hk
      | exn e => cases he; exact hk
      | ok a => exact ih hk he

theorem finish_other {x y n : Nat} {r : Res Outcome} {s : BW} (h : x ≠ y) : (finish y n r s).2.w.get x = s.w.get x := by
  cases r with
  | ok o =>
    cases o with
    | obj => simp [finish, World.get, World.set, List.getElem?_set_ne (fun e => h e.symm)]
    | _ => rfl
  | _ => rfl

theorem eval_keeps_holds {F : Nat → Nat → Prog} {x k : Nat} (hF : ∀ y n, Spares x (F y n)) : ∀ (d : Nat) (busy : List Nat) (y : Nat)
    (s : BW) (r : Res Nat) (s' : BW), (∃ z, s.w.get x = some z ∧ z.obj = some k) →
    evalB F d busy y s = some (r, s') → ∃ z, s'.w.get x = some z ∧ z.obj = some k := by
  intro d
  induction d with
  | zero => intro busy y s r s' _ he; simp [evalB] at he
  | succ d ih =>
    intro busy y s r s' h he
    simp only [evalB] at he
    cases hy : s.w.get y with
    | none => rw [hy] at he; cases he; exact h
    | some z =>
      rw [hy] at he
      obtain ⟨fn, ob⟩ := z
      cases ob with
      | some k => cases he; exact h
      | none =>
        have hne : x ≠ y := by
          rintro rfl
          obtain ⟨z, h1, h2⟩ := h
          rw [hy] at h1; cases h1; cases h2
        cases fn with
        | false => cases he; exact h
        | true =>
          simp only [if_true] at he
          cases hr : runB (evalB F d (y :: busy)) (y :: busy) (F y s.w.calls.length)
              ⟨{ s.w with calls := s.w.calls ++ [y] }, s.born⟩ with
          | none => rw [hr] at he; simp at he
          | some q =>
            obtain ⟨q, s1⟩ := q
            rw [hr] at he
            simp only [Option.some.injEq] at he
            have e : s' = (finish y s.w.calls.length q s1).2 := by rw [he]
            subst e
            obtain ⟨z, h1, h2⟩ := run_holds (s := ⟨{ s.w with calls := s.w.calls ++ [y] }, s.born⟩)
              (fun y' s r s' h he => ih (y :: busy) y' s r s' h he) _ (hF y _) h hr
            exact ⟨z, by rw [finish_other hne]; exact h1, h2⟩

/-- What the client does, sparing `x`. -/
inductive Sparing (F : Nat → Nat → Prog) (x : Nat) : BW → BW → Prop
  | refl {s} : Sparing F x s s
  | eval {s s1 s2 : BW} {d y : Nat} {r : Res Nat} : Sparing F x s s1 → evalB F d [] y s1 = some (r, s2) → Sparing F x s s2
  | act {s s1 : BW} {a : Act} {w' : World} : Sparing F x s s1 → x ∉ a.changes → act [] a s1.w = (.ok (), w') →
    Sparing F x s ⟨w', s1.born⟩

/-- An evaluation that gave `k` is followed by ones that give `k`, without a call of a factory, as long as neither the client nor a factory
changes the variable. -/
theorem C123_stays (F : Nat → Nat → Prog) (s s1 s2 : BW) (d x k : Nat) (h : Reaches F BW.init s)
    (he : evalB F d [] x s = some (.ok k, s1)) (hF : ∀ y n, Spares x (F y n)) (hs : Sparing F x s1 s2) (d' : Nat) (busy : List Nat) :
    evalB F (d' + 1) busy x s2 = some (.ok k, s2) := by
  have h0 := eval_ok (reaches_inv init_inv h) he
  have : ∃ z, s2.w.get x = some z ∧ z.obj = some k := by
    clear he
    induction hs with
    | refl => exact h0
    | eval _ he ih => exact eval_keeps_holds hF _ _ _ _ _ _ ih he
    | act _ hx he ih =>
      obtain ⟨z, h1, h2⟩ := ih
      have := act_holds (busy := []) h1 h2 hx
      rw [he] at this
      exact this
  obtain ⟨z, h1, h2⟩ := this
  exact eval_holds h1 h2

/-- An object that a factory returns is in the list, and evaluation gives it unless its control block cannot be made. -/
theorem C123_made (F : Nat → Nat → Prog) (s s1 : BW) (x d : Nat) (busy : List Nat) (o : Outcome) (hx : s.w.get x = some ⟨true, none⟩)
    (hr : runB (evalB F d (x :: busy)) (x :: busy) (F x s.w.calls.length) ⟨{ s.w with calls := s.w.calls ++ [x] }, s.born⟩ = some (.ok o, s1))
    (ho : o = .obj ∨ o = .noBlock) :
    ∃ s', evalB F (d + 1) busy x s = some (if o = .obj then .ok s.w.calls.length else .exn .badAlloc, s') ∧
      s'.born = s1.born ++ [s.w.calls.length] ∧ ∃ c, s'.w.calls = s.w.calls ++ x :: c := by
  have hc : ∀ (p : Prog) (ev : Nat → BW → Option (Res Nat × BW)) (b : List Nat) (s s' : BW) (r : Res Outcome),
      (∀ y s r s', ev y s = some (r, s') → ∃ c, s'.w.calls = s.w.calls ++ c) → runB ev b p s = some (r, s') →
      ∃ c, s'.w.calls = s.w.calls ++ c := by
    intro p ev b
    induction p with
    | ret o => intro s s' r _ h; simp only [runB] at h; cases h; exact ⟨[], by simp⟩
    | call y k ih =>
      intro s s' r hev h
      simp only [runB] at h
      cases hy : ev y s with
      | none => rw [hy] at h; simp at h
      | some q =>
        obtain ⟨q, s2⟩ := q
        obtain ⟨c, hc⟩ := hev y s q s2 hy
        rw [hy] at h
        cases q with
        | ub u => cases h; exact ⟨c, hc⟩
        | abort => cases h; exact ⟨c, hc⟩
        | ok a => obtain ⟨c', hc'⟩ := ih _ _ _ _ hev h; exact ⟨c ++ c', by rw [hc', hc, List.append_assoc]⟩
        | exn e => obtain ⟨c', hc'⟩ := ih _ _ _ _ hev h; exact ⟨c ++ c', by rw [hc', hc, List.append_assoc]⟩
    | act a k ih =>
      intro s s' r hev h
      simp only [runB] at h
      have ha : (act b a s.w).2.calls = s.w.calls := by
        rcases act_eq (busy := b) (a := a) (w := s.w) with e | ⟨-, e⟩
        · rw [e]
        · rw [e, op_calls]
      cases hy : act b a s.w with
      | mk q w' =>
        rw [hy] at h ha
        cases q with
        | ub u => cases h; exact ⟨[], by simpa using ha⟩
        | abort => cases h; exact ⟨[], by simpa using ha⟩
        | exn e => cases h; exact ⟨[], by simpa using ha⟩
        | ok _ => obtain ⟨c', hc'⟩ := ih _ _ _ hev h; exact ⟨c', by rw [hc']; exact congrArg (· ++ c') ha⟩
  have he : ∀ (d : Nat) (b : List Nat) (y : Nat) (s : BW) (r : Res Nat) (s' : BW), evalB F d b y s = some (r, s') →
      ∃ c, s'.w.calls = s.w.calls ++ c := by
    intro d
    induction d with
    | zero => intro b y s r s' h; simp [evalB] at h
    | succ d ih =>
      intro b y s r s' h
      simp only [evalB] at h
      cases hx : s.w.get y with
      | none => rw [hx] at h; cases h; exact ⟨[], by simp⟩
      | some z =>
        rw [hx] at h
        obtain ⟨fn, ob⟩ := z
        cases ob with
        | some k => cases h; exact ⟨[], by simp⟩
        | none =>
          cases fn with
          | false => cases h; exact ⟨[], by simp⟩
          | true =>
            simp only [if_true] at h
            cases hr : runB (evalB F d (y :: b)) (y :: b) (F y s.w.calls.length)
                ⟨{ s.w with calls := s.w.calls ++ [y] }, s.born⟩ with
            | none => rw [hr] at h; simp at h
            | some q =>
              obtain ⟨q, s1⟩ := q
              rw [hr] at h
              simp only [Option.some.injEq] at h
              have e : s' = (finish y s.w.calls.length q s1).2 := by rw [h]
              subst e
              obtain ⟨c, hc⟩ := hc _ _ _ _ _ _ (fun y' s r s' h => ih (y :: b) y' s r s' h) hr
              exact ⟨y :: c, by rw [finish_calls, hc, List.append_assoc]; rfl⟩
  obtain ⟨c, hc⟩ := hc _ _ _ _ _ _ (fun y s r s' h => he d (x :: busy) y s r s' h) hr
  have hcf := finish_calls x s.w.calls.length (.ok o) s1
  refine ⟨(finish x s.w.calls.length (.ok o) s1).2, ?_, ?_, c, by rw [hcf, hc]; simp⟩
  · simp only [evalB, hx, if_true, hr]
    rcases ho with rfl | rfl <;> rfl
  · rcases ho with rfl | rfl <;> rfl

/-- A copy that a factory takes of its own variable has no object when the evaluation is over. -/
theorem C123_copy (F : Nat → Nat → Prog) (s : BW) (x d : Nat) (busy : List Nat) (hx : s.w.get x = some ⟨true, none⟩)
    (hF : F x s.w.calls.length = .act (.copy x) (.ret .obj)) :
    ∃ s', evalB F (d + 1) busy x s = some (.ok s.w.calls.length, s') ∧
      s'.w.get x = some ⟨true, some s.w.calls.length⟩ ∧ s'.w.get s.w.lz.length = some ⟨true, none⟩ := by
  have hl := get_lt hx
  have hg : World.get ⟨s.w.lz ++ [some ⟨true, none⟩], s.w.calls ++ [x], s.w.deleted⟩ x = some ⟨true, none⟩ := by
    simp [World.get, List.getElem?_append_left hl]; simpa [World.get] using hx
  have hx' : World.get { s.w with calls := s.w.calls ++ [x] } x = some ⟨true, none⟩ := hx
  refine ⟨_, by simp [evalB, hx, hF, runB, act, Act.changes, Act.op, step, hx', finish]; rfl, ?_, ?_⟩
  · simp
    rw [get_set (by simp; omega)]; simp
  · simp
    rw [get_set (by simp; omega), if_neg (by omega)]
    simp [World.get]

/-- A factory that begins by assigning to, moving or destroying its own variable, or one whose evaluation called it, is undefined. -/
theorem C123_change_refuted (F : Nat → Nat → Prog) (s : BW) (x d : Nat) (busy : List Nat) (a : Act) (k : Prog)
    (hx : s.w.get x = some ⟨true, none⟩) (hF : F x s.w.calls.length = .act a k) (ha : ∃ y ∈ a.changes, y ∈ x :: busy) :
    ∃ s', evalB F (d + 1) busy x s = some (.ub .dangling, s') := by
  obtain ⟨y, h1, h2⟩ := ha
  have : (a.changes.any fun z => decide (z ∈ x :: busy)) = true := List.any_eq_true.2 ⟨y, h1, decide_eq_true h2⟩
  exact ⟨⟨{ s.w with calls := s.w.calls ++ [x] }, s.born⟩, by simp only [evalB, hx, hF, runB, act, this, if_true, finish]⟩


/-- The factory of 0 copies its variable, evaluates the copy (call 1, which makes an object and another variable), destroys the copy, so that
object 1 is deleted, and returns object 0. Other factories construct a variable. -/
def sample : Nat → Nat → Prog
  | 0, _ => .act (.copy 0) (.call 1 fun _ => .act (.destroy 1) (.ret .obj))
  | _, _ => .act (.construct true) (.ret .obj)

def before : BW := ⟨(act [] (.construct true) World.init).2, []⟩

example : evalB sample 3 [] 0 before =
    some (.ok 0, ⟨⟨[some ⟨true, some 0⟩, none, some ⟨true, none⟩], [0, 1], [1]⟩, [1, 0]⟩) := by decide +kernel

/-- All of it happens to a client, who then destroys what is left. -/
example : Reaches sample BW.init ⟨⟨[none, none, none], [0, 1], [1, 0]⟩, [1, 0]⟩ := by
  have h0 : Reaches sample BW.init before := .act (s1 := BW.init) (a := .construct true) .refl (by decide +kernel)
  have h1 : Reaches sample BW.init ⟨⟨[some ⟨true, some 0⟩, none, some ⟨true, none⟩], [0, 1], [1]⟩, [1, 0]⟩ :=
    .eval (d := 3) (x := 0) (r := .ok 0) h0 (by decide +kernel) (by simp)
  have h2 : Reaches sample BW.init ⟨⟨[none, none, some ⟨true, none⟩], [0, 1], [1, 0]⟩, [1, 0]⟩ :=
    .act (a := .destroy 0) h1 (by decide +kernel)
  exact .act (a := .destroy 2) h2 (by decide +kernel)

/-- A factory that destroys its variable. -/
example : (evalB (fun _ _ => .act (.destroy 0) (.ret .obj)) 3 [] 0 before).map Prod.fst = some (.ub .dangling) := by decide +kernel

/-- Evaluating its own variable, and copying it when it has an object by then: both objects have owners at the end. -/
def again : Nat → Nat → Prog
  | _, 0 => .call 0 fun _ => .act (.copy 0) (.ret .obj)
  | _, _ => .ret .obj

example : evalB again 3 [] 0 before =
    some (.ok 0, ⟨⟨[some ⟨true, some 0⟩, some ⟨true, some 1⟩], [0, 0], []⟩, [1, 0]⟩) := by decide +kernel

example : ∀ y n, Spares 0 (again y n) := by
  intro y n
  cases n with
  | zero => exact .call _ fun _ => .act (by simp [Act.changes]) (.ret _)
  | succ n => exact .ret _

end Helper.Lazy.Busy
