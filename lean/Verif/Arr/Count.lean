import Verif.Arr.Ops
set_option linter.unusedSectionVars false
/-!
# Counting constructor and destructor calls

Whatever happens, every element constructed so far has been destroyed, was lost, or is alive in some
allocated block.
-/
namespace Helper.Arr

variable {V : Type}

/-- Live elements of a block. -/
def liveIn : Option (List (Option V)) → Nat
  | some c => live c
  | none => 0

/-- Live elements of the blocks `0 … n-1`. -/
def liveUpTo (f : Nat → Option (List (Option V))) : Nat → Nat
  | 0 => 0
  | n + 1 => liveUpTo f n + liveIn (f n)

/-- The balance of constructor and destructor calls. -/
def Bal (s : St V) : Prop :=
  (∀ b, s.next ≤ b → s.blocks b = none) ∧ s.built = s.destroyed + s.lost + liveUpTo s.blocks s.next

theorem liveUpTo_congr {f g : Nat → Option (List (Option V))} : ∀ {n : Nat},
    (∀ b, b < n → f b = g b) → liveUpTo f n = liveUpTo g n
  | 0, _ => rfl
  | n + 1, h => by
    rw [liveUpTo, liveUpTo, h n (by omega), liveUpTo_congr (fun b hb => h b (by omega))]

theorem liveUpTo_upd (f : Nat → Option (List (Option V))) (b : Nat) (c : Option (List (Option V))) :
    ∀ n, b < n → liveUpTo (upd f b c) n + liveIn (f b) = liveUpTo f n + liveIn c
  | 0, h => by omega
  | n + 1, h => by
    rw [liveUpTo, liveUpTo]
    by_cases hb : b = n
    · subst hb
      rw [upd_same, liveUpTo_congr (g := f) (fun b' hb' => upd_ne _ _ (by omega))]; omega
    · have := liveUpTo_upd f b c n (by omega)
      rw [upd_ne f c (fun h => hb h.symm)]; omega

theorem live_set (cells : List (Option V)) (i : Nat) (c c' : Option V) (h : cells[i]? = some c) :
    live (cells.set i c') + (if c.isSome then 1 else 0) = live cells + (if c'.isSome then 1 else 0) := by
  induction cells generalizing i with
  | nil => simp at h
  | cons a t ih =>
    cases i with
    | zero =>
      simp only [List.getElem?_cons_zero, Option.some.injEq] at h
      subst h
      simp only [List.set_cons_zero, live, List.filter_cons]
      by_cases h1 : a.isSome <;> by_cases h2 : c'.isSome <;> simp [h1, h2]
    | succ i =>
      have := ih i (by simpa using h)
      simp only [List.set_cons_succ, live, List.filter_cons] at this ⊢
      by_cases h1 : a.isSome
      · simp only [h1, if_true, List.length_cons]; omega
      · simp only [h1]; simpa using this

/-- `m` keeps the balance, however it ends. -/
def Keep {α : Type} (m : M V α) : Prop := ∀ s, Bal s → Bal (m s).2

theorem Keep.bind {α β : Type} {m : M V α} {f : α → M V β} (h : Keep m) (hf : ∀ a, Keep (f a)) :
    Keep (m >>> f) := by
  intro s hs
  have h1 := h s hs
  unfold M.bind
  match hm : m s with
  | (.ok a, s') => rw [hm] at h1; exact hf a s' h1
  | (.exn e, s') => rw [hm] at h1; exact h1
  | (.ub e, s') => rw [hm] at h1; exact h1
  | (.abort, s') => rw [hm] at h1; exact h1

theorem Keep.pure {α : Type} (a : α) : Keep (M.pure a : M V α) := fun _ h => h
theorem Keep.look {α : Type} (f : St V → Res α) : Keep (M.look f) := fun _ h => h

theorem Keep.tick (e : Exn) : Keep (tick e : M V Unit) := by
  intro s h; unfold Arr.tick; split <;> exact h

theorem Keep.setObj (x : Nat) (o : Obj) : Keep (setObj x o : M V Unit) := fun _ h => h

theorem Keep.alloc (sz n : Nat) : Keep (alloc sz n : M V Nat) := by
  unfold Arr.alloc
  refine (Keep.tick _).bind fun _ s h => ⟨?_, ?_⟩
  · intro b hb
    have hb : s.next + 1 ≤ b := hb
    show upd s.blocks s.next _ b = none
    rw [upd_ne _ _ (by omega)]; exact h.1 b (by omega)
  · show s.built = s.destroyed + s.lost + liveUpTo (upd s.blocks s.next _) (s.next + 1)
    rw [liveUpTo, upd_same, liveUpTo_congr (g := s.blocks) (fun b' hb' => upd_ne _ _ (by omega))]
    simp only [liveIn, live_raw]; exact h.2

theorem Keep.free (p : Option Nat) : Keep (free p : M V Unit) := by
  intro s h; unfold Arr.free
  split
  · exact h
  · rename_i b
    split
    · exact h
    · rename_i cells hb
      have hlt : b < s.next := by
        rcases Nat.lt_or_ge b s.next with hlt | hge
        · exact hlt
        · rw [h.1 b hge] at hb; cases hb
      refine ⟨?_, ?_⟩
      · intro b' hb'
        have hb' : s.next ≤ b' := hb'
        show upd s.blocks b none b' = none
        rw [upd_ne _ _ (by omega)]; exact h.1 b' hb'
      · show s.built = s.destroyed + (s.lost + live cells) + liveUpTo (upd s.blocks b none) s.next
        have := liveUpTo_upd s.blocks b none s.next hlt
        rw [hb] at this
        simp only [liveIn] at this
        have := h.2
        omega

/-- Storing a cell. -/
theorem store_live {p : Option Nat} {i : Nat} {s : St V} {c : Option V} (h : Bal s) (hc : cell p i s = .ok c)
    (c' : Option V) :
    (∀ b, s.next ≤ b → (store p i c' s).blocks b = none) ∧
    liveUpTo (store p i c' s).blocks s.next + (if c.isSome then 1 else 0) =
      liveUpTo s.blocks s.next + (if c'.isSome then 1 else 0) := by
  unfold cell at hc
  split at hc
  · cases hc
  · rename_i b
    split at hc
    · cases hc
    · rename_i cells hb
      split at hc
      · cases hc
      · rename_i c'' hc''
        cases hc
        have hlt : b < s.next := by
          rcases Nat.lt_or_ge b s.next with hlt | hge
          · exact hlt
          · rw [h.1 b hge] at hb; cases hb
        simp only [store, hb]
        refine ⟨?_, ?_⟩
        · intro b' hb'
          rw [upd_ne _ _ (by omega)]; exact h.1 b' hb'
        · have h1 := liveUpTo_upd s.blocks b (some (cells.set i c')) s.next hlt
          have h2 := live_set cells i c c' hc''
          rw [hb] at h1
          simp only [liveIn] at h1
          omega

theorem store_fields (p : Option Nat) (i : Nat) (c : Option V) (s : St V) :
    (store p i c s).next = s.next ∧ (store p i c s).built = s.built ∧
    (store p i c s).destroyed = s.destroyed ∧ (store p i c s).lost = s.lost := by
  unfold store; split
  · exact ⟨rfl, rfl, rfl, rfl⟩
  · split <;> exact ⟨rfl, rfl, rfl, rfl⟩

theorem cell_faults {p : Option Nat} {i : Nat} {s : St V} {f : List Bool} :
    cell p i { s with faults := f } = cell p i s := rfl

theorem Keep.construct (p : Option Nat) (i : Nat) (v : V) : Keep (construct p i v) := by
  intro s h
  unfold Arr.construct
  split
  · rename_i c hc
    rcases tick_cases (.user 0) s with ⟨f, hf, _⟩ | ⟨f, hf, _⟩
    · rw [bind_ok hf]
      have hs : Bal ({ s with faults := f } : St V) := h
      obtain ⟨h1, h2⟩ := store_live hs (c := c) (by rw [cell_faults]; exact hc) (some v)
      obtain ⟨f1, f2, f3, f4⟩ := store_fields p i (some v) ({ s with faults := f } : St V)
      refine ⟨?_, ?_⟩
      · intro b hb
        have hb : (store p i (some v) ({ s with faults := f } : St V)).next ≤ b := hb
        rw [f1] at hb
        exact h1 b hb
      · show s.built + 1 = (store p i (some v) ({ s with faults := f } : St V)).destroyed +
          (s.lost + if c.isSome then 1 else 0) +
          liveUpTo (store p i (some v) ({ s with faults := f } : St V)).blocks
            (store p i (some v) ({ s with faults := f } : St V)).next
        rw [f1, f3]
        have := h.2
        simp only [Option.isSome_some, if_true] at h2
        show s.built + 1 = s.destroyed + _ + liveUpTo _ s.next
        have h2 : _ + _ = liveUpTo s.blocks s.next + 1 := h2
        show s.built + 1 = s.destroyed + (s.lost + if c.isSome then 1 else 0) +
          liveUpTo (store p i (some v) ({ s with faults := f } : St V)).blocks s.next
        have h3 : liveUpTo (store p i (some v) ({ s with faults := f } : St V)).blocks s.next +
          (if c.isSome then 1 else 0) = liveUpTo s.blocks s.next + 1 := h2
        omega
    · rw [bind_exn hf]; exact h
  all_goals exact h

theorem Keep.destroyCell (p : Option Nat) (i : Nat) : Keep (destroyCell p i : M V Unit) := by
  intro s h
  unfold Arr.destroyCell
  split
  · rename_i w hc
    obtain ⟨h1, h2⟩ := store_live h hc none
    obtain ⟨f1, f2, f3, f4⟩ := store_fields p i none s
    refine ⟨?_, ?_⟩
    · intro b hb
      have hb : (store p i none s).next ≤ b := hb
      rw [f1] at hb
      exact h1 b hb
    · show (store p i none s).built = (s.destroyed + 1) + (store p i none s).lost +
        liveUpTo (store p i none s).blocks (store p i none s).next
      rw [f1, f2, f4]
      have := h.2
      simp only [Option.isSome_some, if_true, Option.isSome_none] at h2
      have h2 : liveUpTo (store p i none s).blocks s.next + 1 = liveUpTo s.blocks s.next := by simpa using h2
      omega
  all_goals exact h

theorem Keep.assignCell (p : Option Nat) (i : Nat) (v : V) : Keep (assignCell p i v) := by
  intro s h
  unfold Arr.assignCell
  split
  · rename_i w hc
    rcases tick_cases (.user 1) s with ⟨f, hf, _⟩ | ⟨f, hf, _⟩
    · rw [bind_ok hf]
      have hs : Bal ({ s with faults := f } : St V) := h
      obtain ⟨h1, h2⟩ := store_live hs (c := some w) (by rw [cell_faults]; exact hc) (some v)
      obtain ⟨f1, f2, f3, f4⟩ := store_fields p i (some v) ({ s with faults := f } : St V)
      refine ⟨?_, ?_⟩
      · intro b hb
        have hb : (store p i (some v) ({ s with faults := f } : St V)).next ≤ b := hb
        rw [f1] at hb
        exact h1 b hb
      · show (store p i (some v) ({ s with faults := f } : St V)).built =
          (store p i (some v) ({ s with faults := f } : St V)).destroyed +
          (store p i (some v) ({ s with faults := f } : St V)).lost +
          liveUpTo (store p i (some v) ({ s with faults := f } : St V)).blocks
            (store p i (some v) ({ s with faults := f } : St V)).next
        rw [f1, f2, f3, f4]
        have := h.2
        show s.built = s.destroyed + s.lost +
          liveUpTo (store p i (some v) ({ s with faults := f } : St V)).blocks s.next
        have h2 : liveUpTo (store p i (some v) ({ s with faults := f } : St V)).blocks s.next + 1 =
          liveUpTo s.blocks s.next + 1 := by simpa using h2
        omega
    · rw [bind_exn hf]; exact h
  all_goals exact h

theorem Keep.constructLoop (p : Option Nat) {src : Nat → M V V} (h : ∀ i, Keep (src i)) :
    ∀ n i, Keep (constructLoop p src n i)
  | 0, _ => Keep.pure _
  | n + 1, i => by
    rw [Arr.constructLoop]
    exact (h i).bind fun v => (Keep.construct p i v).bind fun _ => Keep.constructLoop p h n (i + 1)

theorem Keep.assignLoop (p : Option Nat) {src : Nat → M V V} (h : ∀ i, Keep (src i)) :
    ∀ n i, Keep (assignLoop p src n i)
  | 0, _ => Keep.pure _
  | n + 1, i => by
    rw [Arr.assignLoop]
    exact (h i).bind fun v => (Keep.assignCell p i v).bind fun _ => Keep.assignLoop p h n (i + 1)

theorem Keep.destroyLoop (p : Option Nat) : ∀ n, Keep (destroyLoop p n : M V Unit)
  | 0 => Keep.pure _
  | n + 1 => by
    rw [Arr.destroyLoop]
    exact (Keep.destroyCell p n).bind fun _ => Keep.destroyLoop p n

theorem Keep.readArg (r : Sum V (Option Nat × Nat)) : Keep (readArg r) := by
  unfold Arr.readArg; split
  · exact Keep.pure _
  · exact Keep.look _

theorem Keep.bindArg (a : Arg V) : Keep (bindArg a) := by
  unfold Arr.bindArg; split
  · exact Keep.pure _
  · exact (Keep.look _).bind fun _ => Keep.pure _

theorem Keep.readSrc (q : Sum (List V) (Option Nat × Nat)) (k : Nat) : Keep (readSrc q k) := by
  unfold Arr.readSrc; split <;> exact Keep.look _

theorem Keep.bindSrc (r : Src V) : Keep (bindSrc r) := by
  unfold Arr.bindSrc; split
  · exact Keep.pure _
  · exact (Keep.look _).bind fun _ => Keep.pure _

theorem Keep.build (sz n : Nat) {src : Nat → M V V} (h : ∀ i, Keep (src i)) (x : Nat) :
    Keep (build sz n src x) :=
  (Keep.alloc sz n).bind fun _ => (Keep.constructLoop _ h _ _).bind fun _ => Keep.setObj _ _

theorem Keep.resizeWith (sz : Nat) {dv : M V V} (h : Keep dv) (x n : Nat) : Keep (resizeWith sz dv x n) := by
  refine (Keep.look _).bind fun o => ?_
  split
  · refine (Keep.alloc sz n).bind fun b => (Keep.constructLoop _ ?_ _ _).bind fun _ =>
      (Keep.destroyLoop _ _).bind fun _ => (Keep.free _).bind fun _ => Keep.setObj _ _
    intro i; split
    · exact Keep.look _
    · exact h
  · exact Keep.pure _

theorem Keep.fillWith (x : Nat) {src : Nat → M V V} (h : ∀ i, Keep (src i)) : Keep (fillWith x src) :=
  (Keep.look _).bind fun _ => Keep.assignLoop _ h _ _

/-- Every operation keeps the balance, whatever its outcome and whether or not the client obeys the
rules. -/
theorem Keep.op (sz : Nat) (dflt : V) (o : Op V) : Keep (op sz dflt o) := by
  cases o with
  | ctorDefault x => exact Keep.setObj _ _
  | ctorSize x n => exact Keep.build _ _ (fun _ => Keep.pure _) _
  | ctorFill x n a => exact (Keep.bindArg a).bind fun r => Keep.build _ _ (fun _ => Keep.readArg r) _
  | ctorRange x r =>
    refine (Keep.bindSrc r).bind fun q => ?_
    split
    · exact (Keep.alloc _ _).bind fun _ s h => h
    · exact Keep.build _ _ (Keep.readSrc q) _
  | ctorGen x n g => exact Keep.build _ _ (fun _ => Keep.pure _) _
  | ctorCopy x y => exact (Keep.look _).bind fun _ => Keep.build _ _ (fun _ => Keep.look _) _
  | ctorMove x y => exact (Keep.look _).bind fun _ => (Keep.setObj _ _).bind fun _ => Keep.setObj _ _
  | assignCopy x y =>
    refine (Keep.look _).bind fun ox => (Keep.look _).bind fun oy => ?_
    split
    · exact Keep.assignLoop _ (fun _ => Keep.look _) _ _
    · exact (Keep.destroyLoop _ _).bind fun _ => (Keep.free _).bind fun _ => (Keep.setObj _ _).bind fun _ =>
        (Keep.alloc _ _).bind fun _ => (Keep.setObj _ _).bind fun _ =>
          Keep.constructLoop _ (fun _ => Keep.look _) _ _
  | assignMove x y =>
    refine (Keep.look _).bind fun _ => (Keep.look _).bind fun _ => ?_
    split
    · exact (Keep.setObj _ _).bind fun _ => Keep.setObj _ _
    · exact Keep.pure _
  | resize x n => exact Keep.resizeWith _ (Keep.pure _) _ _
  | resizeVal x n a => exact (Keep.bindArg a).bind fun r => Keep.resizeWith _ (Keep.readArg r) _ _
  | reallocate x n =>
    refine (Keep.look _).bind fun o => ?_
    split
    · exact (Keep.destroyLoop _ _).bind fun _ => (Keep.free _).bind fun _ => (Keep.setObj _ _).bind fun _ =>
        (Keep.alloc _ _).bind fun _ => (Keep.setObj _ _).bind fun _ =>
          Keep.constructLoop _ (fun _ => Keep.pure _) _ _
    · exact Keep.pure _
  | swap x y =>
    exact (Keep.look _).bind fun _ => (Keep.look _).bind fun _ => (Keep.setObj _ _).bind fun _ => Keep.setObj _ _
  | write x i v => exact (Keep.look _).bind fun _ => Keep.assignCell _ _ _
  | fill x a => exact (Keep.bindArg a).bind fun r => Keep.fillWith _ (fun _ => Keep.readArg r)
  | fillFrom x r => exact (Keep.bindSrc r).bind fun q => Keep.fillWith _ (Keep.readSrc q)
  | assign x r =>
    exact (Keep.bindSrc r).bind fun q => (Keep.resizeWith _ (Keep.pure _) _ _).bind fun _ =>
      Keep.fillWith _ (Keep.readSrc q)
  | destroy x =>
    exact (Keep.look _).bind fun _ => (Keep.destroyLoop _ _).bind fun _ => (Keep.free _).bind fun _ s h => h

theorem Bal.init (faults : List Bool) : Bal (St.init faults : St V) := ⟨fun _ _ => rfl, rfl⟩

theorem Bal.run (sz : Nat) (dflt : V) : ∀ (os : List (Op V)) (s : St V), Bal s → Bal (run sz dflt os s).2
  | [], _, h => h
  | o :: os, s, h => by
    have h1 := Keep.op sz dflt o s h
    unfold Arr.run
    match hm : Arr.op sz dflt o s with
    | (.ok a, s') => rw [hm] at h1; exact Bal.run sz dflt os s' h1
    | (.exn e, s') => rw [hm] at h1; exact Bal.run sz dflt os s' h1
    | (.ub e, s') => rw [hm] at h1; exact h1
    | (.abort, s') => rw [hm] at h1; exact h1

/-- With no block allocated, everything constructed has been destroyed or lost. -/
theorem Bal.empty {s : St V} (h : Bal s) (hb : ∀ b, s.blocks b = none) : s.built = s.destroyed + s.lost := by
  have : ∀ n, liveUpTo s.blocks n = 0 := by
    intro n; induction n with
    | zero => rfl
    | succ n ih => rw [liveUpTo, ih, hb]; rfl
  rw [h.2, this]; rfl

end Helper.Arr
