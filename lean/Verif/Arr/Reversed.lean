import Verif.Arr.Faults
/-!
# C70: reversed ranges without the assertion (array.hpp:102-104 with NDEBUG, 204-205)

The assertion of line 103 is the only one that looks at the order of the iterators: it is not compiled with
NDEBUG, and `assign` has none. The distance is then converted to a size near 2^64.
-/
set_option linter.unusedSectionVars false
namespace Helper.Arr.Reversed

variable {V : Type}

/-- Lines 100-104 with NDEBUG. -/
def ctorRangeNdebug (sz x : Nat) (r : Src V) : M V Unit :=
  bindSrc r >>> fun q => build sz (r.dist % 2 ^ 64).toNat (readSrc q) x

/-- No block has 2^64 cells. -/
def Small (s : St V) : Prop := ∀ b cells, s.blocks b = some cells → cells.length < 2 ^ 64

/-- A step that keeps blocks small. -/
def Keeps {α : Type} (m : M V α) : Prop := ∀ s, Small s → Small (m s).2

theorem Keeps.bind {α β : Type} {m : M V α} {f : α → M V β} (h : Keeps m) (g : ∀ a, Keeps (f a)) : Keeps (m >>> f) := by
  intro s hs
  have h1 := h s hs
  unfold M.bind
  cases e : m s with
  | mk r s' =>
    rw [e] at h1
    cases r with
    | ok a => exact g a s' h1
    | exn _ => exact h1
    | ub _ => exact h1
    | abort => exact h1

theorem Keeps.look {α : Type} (f : St V → Res α) : Keeps (M.look f) := fun _ h => h
theorem Keeps.pure {α : Type} (a : α) : Keeps (M.pure a : M V α) := fun _ h => h

theorem Keeps.tick (e : Exn) : Keeps (tick e : M V Unit) := by
  intro s h
  unfold Arr.tick
  split <;> exact h

theorem Small.upd {s : St V} (h : Small s) (b : Nat) (c : Option (List (Option V))) (hc : ∀ cells, c = some cells → cells.length < 2 ^ 64) :
    ∀ b' cells, Arr.upd s.blocks b c b' = some cells → cells.length < 2 ^ 64 := by
  intro b' cells hb
  unfold Arr.upd at hb
  split at hb
  · exact hc _ hb
  · exact h _ _ hb

theorem Keeps.alloc (sz n : Nat) : Keeps (alloc sz n : M V Nat) := by
  refine Keeps.bind (Keeps.tick _) fun _ s h => ?_
  refine Small.upd h _ _ ?_
  rintro cells ⟨⟩
  rw [List.length_replicate]
  have h1 := Nat.mod_lt (n * sz) (show 0 < 2 ^ 64 by decide)
  have h2 := Nat.div_le_self (n * sz % 2 ^ 64) sz
  omega

theorem Small.store {s : St V} (h : Small s) (p : Option Nat) (i : Nat) (c : Option V) : Small (store p i c s) := by
  unfold Arr.store
  split
  · exact h
  · split
    · exact h
    · rename_i hb
      refine Small.upd h _ _ ?_
      rintro cells ⟨⟩
      rw [List.length_set]
      exact h _ _ hb

theorem Keeps.construct (p : Option Nat) (i : Nat) (v : V) : Keeps (construct p i v) := by
  intro s h
  unfold Arr.construct
  split
  · exact Keeps.bind (Keeps.tick _) (fun _ s h => Small.store h p i (some v)) s h
  · exact h
  · exact h
  · exact h

theorem Keeps.assignCell (p : Option Nat) (i : Nat) (v : V) : Keeps (assignCell p i v) := by
  intro s h
  unfold Arr.assignCell
  split
  · exact Keeps.bind (Keeps.tick _) (fun _ s h => Small.store h p i (some v)) s h
  · exact h
  · exact h
  · exact h
  · exact h

theorem Keeps.destroyCell (p : Option Nat) (i : Nat) : Keeps (destroyCell p i : M V Unit) := by
  intro s h
  unfold Arr.destroyCell
  split
  · exact Small.store h p i none
  · exact h
  · exact h
  · exact h
  · exact h

theorem Keeps.free (p : Option Nat) : Keeps (free p : M V Unit) := by
  intro s h
  unfold Arr.free
  split
  · exact h
  · split
    · exact h
    · exact Small.upd h _ _ (by rintro _ ⟨⟩)

theorem Keeps.destroyLoop (p : Option Nat) : ∀ n, Keeps (destroyLoop p n : M V Unit)
  | 0 => Keeps.pure _
  | n + 1 => Keeps.bind (Keeps.destroyCell p n) fun _ => Keeps.destroyLoop p n

theorem Keeps.setObj (x : Nat) (o : Obj) : Keeps (setObj x o : M V Unit) := fun _ h => h

theorem Keeps.readCell (p : Option Nat) (i : Nat) : Keeps (readCell p i : M V V) := Keeps.look _

theorem Keeps.readSrc (q : Sum (List V) (Option Nat × Nat)) (k : Nat) : Keeps (readSrc q k) := by
  cases q with
  | inl vs => exact Keeps.look _
  | inr p => exact Keeps.readCell _ _

theorem Keeps.constructLoop (p : Option Nat) {src : Nat → M V V} (hsrc : ∀ i, Keeps (src i)) : ∀ n i, Keeps (constructLoop p src n i)
  | 0, _ => Keeps.pure _
  | n + 1, i => Keeps.bind (hsrc i) fun v => Keeps.bind (Keeps.construct p i v) fun _ => Keeps.constructLoop p hsrc n (i + 1)

theorem Keeps.assignLoop (p : Option Nat) {src : Nat → M V V} (hsrc : ∀ i, Keeps (src i)) : ∀ n i, Keeps (assignLoop p src n i)
  | 0, _ => Keeps.pure _
  | n + 1, i => Keeps.bind (hsrc i) fun v => Keeps.bind (Keeps.assignCell p i v) fun _ => Keeps.assignLoop p hsrc n (i + 1)

theorem Keeps.getObj (x : Nat) : Keeps (getObj x : M V Obj) := Keeps.look _

theorem Keeps.bindSrc (r : Src V) : Keeps (bindSrc r) := by
  cases r with
  | ext vs => exact Keeps.pure _
  | range y i j => exact Keeps.bind (Keeps.getObj y) fun _ => Keeps.pure _

theorem Keeps.bindArg (a : Arg V) : Keeps (bindArg a) := by
  cases a with
  | ext v => exact Keeps.pure _
  | elem y i => exact Keeps.bind (Keeps.getObj y) fun _ => Keeps.pure _

theorem Keeps.readArg (q : Sum V (Option Nat × Nat)) : Keeps (readArg q) := by
  cases q with
  | inl v => exact Keeps.pure _
  | inr p => exact Keeps.readCell _ _

theorem Keeps.build (sz n : Nat) {src : Nat → M V V} (hsrc : ∀ i, Keeps (src i)) (x : Nat) : Keeps (build sz n src x) :=
  Keeps.bind (Keeps.alloc sz n) fun _ => Keeps.bind (Keeps.constructLoop _ hsrc n 0) fun _ => Keeps.setObj _ _

theorem Keeps.ite {α : Type} {c : Prop} [Decidable c] {m m' : M V α} (h : Keeps m) (h' : Keeps m') : Keeps (if c then m else m') := by
  split <;> assumption

theorem Keeps.resizeWith (sz : Nat) {dv : M V V} (hd : Keeps dv) (x n : Nat) : Keeps (resizeWith sz dv x n) :=
  Keeps.bind (Keeps.getObj x) fun _ => Keeps.ite
    (Keeps.bind (Keeps.alloc sz n) fun _ => Keeps.bind (Keeps.constructLoop _ (fun _ => Keeps.ite (Keeps.readCell _ _) hd) n 0) fun _ =>
      Keeps.bind (Keeps.destroyLoop _ _) fun _ => Keeps.bind (Keeps.free _) fun _ => Keeps.setObj _ _)
    (Keeps.pure _)

theorem Keeps.fillWith (x : Nat) {src : Nat → M V V} (hsrc : ∀ i, Keeps (src i)) : Keeps (fillWith x src) :=
  Keeps.bind (Keeps.getObj x) fun _ => Keeps.assignLoop _ hsrc _ 0

theorem Keeps.op (sz : Nat) (dflt : V) (o : Op V) : Keeps (op sz dflt o) := by
  cases o with
  | ctorDefault x => exact Keeps.setObj _ _
  | ctorSize x n => exact Keeps.build sz n (fun _ => Keeps.pure _) x
  | ctorFill x n a => exact Keeps.bind (Keeps.bindArg a) fun r => Keeps.build sz n (fun _ => Keeps.readArg r) x
  | ctorRange x r =>
    exact Keeps.bind (Keeps.bindSrc r) fun q => Keeps.ite (Keeps.bind (Keeps.alloc sz _) fun _ _ h => h)
      (Keeps.build sz _ (Keeps.readSrc q) x)
  | ctorGen x n g => exact Keeps.build sz n (fun _ => Keeps.pure _) x
  | ctorCopy x y => exact Keeps.bind (Keeps.getObj y) fun o => Keeps.build sz _ (fun _ => Keeps.readCell _ _) x
  | ctorMove x y => exact Keeps.bind (Keeps.getObj y) fun o => Keeps.bind (Keeps.setObj _ _) fun _ => Keeps.setObj _ _
  | assignCopy x y =>
    exact Keeps.bind (Keeps.getObj x) fun ox => Keeps.bind (Keeps.getObj y) fun oy => Keeps.ite
      (Keeps.assignLoop _ (fun _ => Keeps.readCell _ _) _ 0)
      (Keeps.bind (Keeps.destroyLoop _ _) fun _ => Keeps.bind (Keeps.free _) fun _ => Keeps.bind (Keeps.setObj _ _) fun _ =>
        Keeps.bind (Keeps.alloc sz _) fun _ => Keeps.bind (Keeps.setObj _ _) fun _ => Keeps.constructLoop _ (fun _ => Keeps.readCell _ _) _ 0)
  | assignMove x y =>
    exact Keeps.bind (Keeps.getObj x) fun _ => Keeps.bind (Keeps.getObj y) fun _ => Keeps.ite
      (Keeps.bind (Keeps.setObj _ _) fun _ => Keeps.setObj _ _) (Keeps.pure _)
  | resize x n => exact Keeps.resizeWith sz (Keeps.pure _) x n
  | resizeVal x n a => exact Keeps.bind (Keeps.bindArg a) fun r => Keeps.resizeWith sz (Keeps.readArg r) x n
  | reallocate x n =>
    exact Keeps.bind (Keeps.getObj x) fun _ => Keeps.ite
      (Keeps.bind (Keeps.destroyLoop _ _) fun _ => Keeps.bind (Keeps.free _) fun _ => Keeps.bind (Keeps.setObj _ _) fun _ =>
        Keeps.bind (Keeps.alloc sz _) fun _ => Keeps.bind (Keeps.setObj _ _) fun _ => Keeps.constructLoop _ (fun _ => Keeps.pure _) _ 0)
      (Keeps.pure _)
  | swap x y =>
    exact Keeps.bind (Keeps.getObj x) fun _ => Keeps.bind (Keeps.getObj y) fun _ => Keeps.bind (Keeps.setObj _ _) fun _ => Keeps.setObj _ _
  | write x i v => exact Keeps.bind (Keeps.getObj x) fun _ => Keeps.assignCell _ _ _
  | fill x a => exact Keeps.bind (Keeps.bindArg a) fun r => Keeps.fillWith x fun _ => Keeps.readArg r
  | fillFrom x r => exact Keeps.bind (Keeps.bindSrc r) fun q => Keeps.fillWith x (Keeps.readSrc q)
  | assign x r =>
    exact Keeps.bind (Keeps.bindSrc r) fun q => Keeps.bind (Keeps.resizeWith sz (Keeps.pure _) x _) fun _ => Keeps.fillWith x (Keeps.readSrc q)
  | destroy x =>
    exact Keeps.bind (Keeps.getObj x) fun _ => Keeps.bind (Keeps.destroyLoop _ _) fun _ => Keeps.bind (Keeps.free _) fun _ _ h => h

/-- In every program blocks stay small. -/
theorem small_run (sz : Nat) (dflt : V) : ∀ (os : List (Op V)) (s : St V), Small s → Small (run sz dflt os s).2
  | [], _, h => h
  | o :: os, s, h => by
    have h1 := Keeps.op sz dflt o s h
    rw [run]
    cases e : op sz dflt o s with
    | mk r s' =>
      rw [e] at h1
      cases r with
      | ok u => exact small_run sz dflt os s' h1
      | exn u => exact small_run sz dflt os s' h1
      | ub u => exact h1
      | abort => exact h1

theorem bind_eq_ok {α β : Type} {m : M V α} {f : α → M V β} {s s' : St V} {b : β} (h : (m >>> f) s = (.ok b, s')) :
    ∃ a s1, m s = (.ok a, s1) ∧ f a s1 = (.ok b, s') := by
  unfold M.bind at h
  cases e : m s with
  | mk r s1 =>
    rw [e] at h
    cases r with
    | ok a => exact ⟨a, s1, rfl, h⟩
    | exn _ => cases h
    | ub _ => cases h
    | abort => cases h

/-- An element that is read is below 2^64-1. -/
theorem readCell_lt {p : Option Nat} {i : Nat} {s s' : St V} {v : V} (hs : Small s) (h : readCell p i s = (.ok v, s')) : i + 1 < 2 ^ 64 := by
  unfold readCell M.look cell at h
  cases p with
  | none => cases h
  | some b =>
    cases e : s.blocks b with
    | none => simp [e] at h
    | some cells =>
      cases e2 : cells[i]? with
      | none => simp [e, e2] at h
      | some c =>
        have h1 := hs b cells e
        have h2 : i < cells.length := by
          rcases Nat.lt_or_ge i cells.length with h | h
          · exact h
          · rw [List.getElem?_eq_none h] at e2; cases e2
        omega

/-- A loop that ends normally has read its last element. -/
theorem constructLoop_last {p q : Option Nat} {a : Nat} : ∀ (n i : Nat) (s s' : St V), Small s →
    constructLoop p (readSrc (.inr (q, a))) (n + 1) i s = (.ok (), s') → a + i + n + 1 < 2 ^ 64
  | n, i, s, s', hs, h => by
    rw [constructLoop] at h
    obtain ⟨v, s1, h1, h⟩ := bind_eq_ok h
    obtain ⟨u, s2, h2, h⟩ := bind_eq_ok h
    have hs1 : Small s1 := by have := Keeps.readSrc (.inr (q, a)) i s hs; rw [h1] at this; exact this
    have hs2 : Small s2 := by have := Keeps.construct p i v s1 hs1; rw [h2] at this; exact this
    cases n with
    | zero => have := readCell_lt hs h1; omega
    | succ n => have := constructLoop_last n (i + 1) s2 s' hs2 h; omega

theorem assignLoop_last {p q : Option Nat} {a : Nat} : ∀ (n i : Nat) (s s' : St V), Small s →
    assignLoop p (readSrc (.inr (q, a))) (n + 1) i s = (.ok (), s') → a + i + n + 1 < 2 ^ 64
  | n, i, s, s', hs, h => by
    rw [assignLoop] at h
    obtain ⟨v, s1, h1, h⟩ := bind_eq_ok h
    obtain ⟨u, s2, h2, h⟩ := bind_eq_ok h
    have hs1 : Small s1 := by have := Keeps.readSrc (.inr (q, a)) i s hs; rw [h1] at this; exact this
    have hs2 : Small s2 := by have := Keeps.assignCell p i v s1 hs1; rw [h2] at this; exact this
    cases n with
    | zero => have := readCell_lt hs h1; omega
    | succ n => have := assignLoop_last n (i + 1) s2 s' hs2 h; omega

theorem dist_reversed {y i j : Nat} (hij : j < i) (hi : i < 2 ^ 64) : (((Src.range y i j : Src V).dist) % 2 ^ 64).toNat = 2 ^ 64 - (i - j) := by
  simp only [Src.dist]
  omega

/-- C70 with NDEBUG: no array comes from a reversed range either, but the loop runs beyond the end of the
range unless something throws. -/
theorem C70_ndebug (sz : Nat) (dflt : V) (os : List (Op V)) (faults : List Bool) {x y i j : Nat} (hij : j < i) (hi : i < 2 ^ 64) :
    ∀ s', ctorRangeNdebug sz x (.range y i j) (run sz dflt os (St.init faults)).2 ≠ (.ok (), s') := by
  intro s' h
  have hs : Small (run sz dflt os (St.init faults)).2 := small_run sz dflt os _ (by intro b cells hb; cases hb)
  unfold ctorRangeNdebug at h
  rw [dist_reversed hij hi] at h
  obtain ⟨q, s1, h1, h⟩ := bind_eq_ok h
  obtain ⟨o, s2, _, h2⟩ := bind_eq_ok h1
  cases h2
  have hs1 : Small s1 := by have := Keeps.bindSrc (.range y i j) _ hs; rw [h1] at this; exact this
  obtain ⟨b, s3, h3, h⟩ := bind_eq_ok h
  have hs3 : Small s3 := by have := Keeps.alloc (V := V) sz (2 ^ 64 - (i - j)) s1 hs1; rw [h3] at this; exact this
  obtain ⟨_, s4, h4, _⟩ := bind_eq_ok h
  obtain ⟨n, hn⟩ : ∃ n, 2 ^ 64 - (i - j) = n + 1 := ⟨2 ^ 64 - (i - j) - 1, by omega⟩
  rw [hn] at h4
  have := constructLoop_last n 0 s3 s4 hs3 h4
  omega

theorem resizeWith_size {sz x n : Nat} {dv : M V V} {s s' : St V} (h : resizeWith sz dv x n s = (.ok (), s')) :
    ∃ o, s'.vars x = some o ∧ o.size = n := by
  obtain ⟨o, s1, h1, h⟩ := bind_eq_ok h
  have hv : s1 = s ∧ s.vars x = some o := by
    unfold getObj M.look at h1
    cases e : s.vars x with
    | none => simp [e] at h1
    | some o' =>
      simp only [e, Prod.mk.injEq, Res.ok.injEq] at h1
      exact ⟨h1.2.symm, by rw [h1.1]⟩
  split at h
  · obtain ⟨b, s2, _, h⟩ := bind_eq_ok h
    obtain ⟨_, s3, _, h⟩ := bind_eq_ok h
    obtain ⟨_, s4, _, h⟩ := bind_eq_ok h
    obtain ⟨_, s5, _, h⟩ := bind_eq_ok h
    unfold setObj at h
    cases h
    exact ⟨⟨n, some b⟩, by simp [Arr.upd], rfl⟩
  · rename_i hsz
    cases h
    rw [hv.1]
    exact ⟨o, hv.2, Classical.not_not.1 hsz⟩

/-- The same for `assign`, which has no assertion. -/
theorem C70_assign (sz : Nat) (dflt : V) (os : List (Op V)) (faults : List Bool) {x y i j : Nat} (hij : j < i) (hi : i < 2 ^ 64) :
    ∀ s', op sz dflt (.assign x (.range y i j)) (run sz dflt os (St.init faults)).2 ≠ (.ok (), s') := by
  intro s' h
  have hs : Small (run sz dflt os (St.init faults)).2 := small_run sz dflt os _ (by intro b cells hb; cases hb)
  rw [op, dist_reversed hij hi] at h
  obtain ⟨q, s1, h1, h⟩ := bind_eq_ok h
  obtain ⟨o, s2, _, h2⟩ := bind_eq_ok h1
  cases h2
  have hs1 : Small s1 := by have := Keeps.bindSrc (.range y i j) _ hs; rw [h1] at this; exact this
  obtain ⟨u, s3, h3, h⟩ := bind_eq_ok h
  have hs3 : Small s3 := by have := Keeps.resizeWith sz (Keeps.pure dflt) x (2 ^ 64 - (i - j)) s1 hs1; rw [h3] at this; exact this
  obtain ⟨o', s4, h4, h⟩ := bind_eq_ok h
  have hs4 : Small s4 := by have := Keeps.getObj x s3 hs3; rw [h4] at this; exact this
  obtain ⟨o2, hv, hsz⟩ := resizeWith_size h3
  have ho : o' = o2 := by
    unfold getObj M.look at h4
    simp only [hv, Prod.mk.injEq, Res.ok.injEq] at h4
    exact h4.1.symm
  rw [ho, hsz] at h
  obtain ⟨n, hn⟩ : ∃ n, 2 ^ 64 - (i - j) = n + 1 := ⟨2 ^ 64 - (i - j) - 1, by omega⟩
  rw [hn] at h
  have := assignLoop_last n 0 s4 s' hs4 h
  omega

/-- The allocation of the model never fails by itself; here it does. -/
example : (ctorRangeNdebug 8 1 (.range 0 2 1) (run 8 0 [.ctorRange 0 (.ext [1, 2, 3])] (St.init (List.replicate 4 false ++ [true]))).2).1 =
    .exn .badAlloc := by decide +kernel
example : (op 8 0 (.assign 0 (.range 0 2 1)) (run 8 0 [.ctorRange 0 (.ext [1, 2, 3])] (St.init (List.replicate 4 false ++ [true]))).2).1 =
    .exn .badAlloc := by decide +kernel
example : (ctorRangeNdebug 8 1 (.range 0 1 2) (run 8 0 [.ctorRange 0 (.ext [1, 2, 3])] (St.init [])).2).1 = .ok () := by decide +kernel

end Helper.Arr.Reversed
