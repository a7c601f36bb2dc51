import Verif.Arr.Spec
set_option linter.unusedSectionVars false
namespace Helper.Arr

variable {V : Type}

theorem upd_same {α : Type v} (f : Nat → α) (x : Nat) (a : α) : upd f x a x = a := by simp [upd]
theorem upd_ne {α : Type v} (f : Nat → α) {x y : Nat} (a : α) (h : y ≠ x) : upd f x a y = f y := by
  simp [upd, h]

theorem bind_ok {α β : Type} {m : M V α} {f : α → M V β} {s s' : St V} {a : α}
    (h : m s = (.ok a, s')) : (m >>> f) s = f a s' := by simp [M.bind, h]
theorem bind_exn {α β : Type} {m : M V α} {f : α → M V β} {s s' : St V} {e : Exn}
    (h : m s = (.exn e, s')) : (m >>> f) s = (.exn e, s') := by simp [M.bind, h]

/-- `s'` differs from `s` only in block `b`, the counters, and faults used up. -/
structure Same (b : Nat) (s s' : St V) : Prop where
  blocks : ∀ b', b' ≠ b → s'.blocks b' = s.blocks b'
  vars : s'.vars = s.vars
  next : s'.next = s.next
  lost : s'.lost = s.lost
  faults : s.faults = [] → s'.faults = []

theorem Same.refl (b : Nat) (s : St V) : Same b s s := ⟨fun _ _ => rfl, rfl, rfl, rfl, id⟩

theorem Same.trans {b : Nat} {s s' s'' : St V} (h : Same b s s') (h' : Same b s' s'') : Same b s s'' :=
  ⟨fun b' hb => (h'.blocks b' hb).trans (h.blocks b' hb), h'.vars.trans h.vars,
   h'.next.trans h.next, h'.lost.trans h.lost, fun hf => h'.faults (h.faults hf)⟩

theorem tick_cases (e : Exn) (s : St V) :
    (∃ f, tick e s = (.ok (), { s with faults := f }) ∧ (s.faults = [] → f = [])) ∨
    (∃ f, tick e s = (.exn e, { s with faults := f }) ∧ s.faults ≠ []) := by
  unfold tick
  match h : s.faults with
  | [] => exact .inl ⟨[], by cases s; simp_all, fun _ => rfl⟩
  | false :: t => exact .inl ⟨t, rfl, fun h => by simp at h⟩
  | true :: t => exact .inr ⟨t, rfl, by simp⟩

theorem cell_eq {b i : Nat} {s : St V} {cells : List (Option V)} (hb : s.blocks b = some cells)
    {c : Option V} (hc : cells[i]? = some c) : cell (some b) i s = .ok c := by
  simp [cell, hb, hc]

theorem construct_cases {b : Nat} {s : St V} {cells : List (Option V)} (hb : s.blocks b = some cells)
    {i : Nat} (hc : cells[i]? = some none) (v : V) :
    (∃ s', construct (some b) i v s = (.ok (), s') ∧ Same b s s' ∧
      s'.blocks b = some (cells.set i (some v))) ∨
    (∃ e s', construct (some b) i v s = (.exn e, s') ∧ Same b s s' ∧ s.faults ≠ [] ∧
      s'.blocks b = some cells) := by
  unfold construct
  rw [cell_eq hb hc]
  simp only
  rcases tick_cases (.user 0) s with ⟨f, hf, hf'⟩ | ⟨f, hf, hf'⟩
  · left
    rw [bind_ok hf]
    refine ⟨_, rfl, ⟨?_, ?_, ?_, ?_, ?_⟩, ?_⟩
    · intro b' hb'; simp [store, hb, upd, hb']
    · simp [store, hb]
    · simp [store, hb]
    · simp
    · intro h; simp [store, hb, hf' h]
    · simp [store, hb, upd]
  · right
    rw [bind_exn hf]
    exact ⟨_, _, rfl, ⟨fun _ _ => rfl, rfl, rfl, rfl, fun h => absurd h hf'⟩, hf', hb⟩

theorem assignCell_cases {b : Nat} {s : St V} {cells : List (Option V)} (hb : s.blocks b = some cells)
    {i : Nat} {w : V} (hc : cells[i]? = some (some w)) (v : V) :
    (∃ s', assignCell (some b) i v s = (.ok (), s') ∧ Same b s s' ∧
      s'.blocks b = some (cells.set i (some v))) ∨
    (∃ e s', assignCell (some b) i v s = (.exn e, s') ∧ Same b s s' ∧ s.faults ≠ [] ∧
      s'.blocks b = some cells) := by
  unfold assignCell
  rw [cell_eq hb hc]
  simp only
  rcases tick_cases (.user 1) s with ⟨f, hf, hf'⟩ | ⟨f, hf, hf'⟩
  · left
    rw [bind_ok hf]
    refine ⟨_, rfl, ⟨?_, ?_, ?_, ?_, ?_⟩, ?_⟩
    · intro b' hb'; simp [store, hb, upd, hb']
    · simp [store, hb]
    · simp [store, hb]
    · simp [store, hb]
    · intro h; simp [store, hb, hf' h]
    · simp [store, hb, upd]
  · right
    rw [bind_exn hf]
    exact ⟨_, _, rfl, ⟨fun _ _ => rfl, rfl, rfl, rfl, fun h => absurd h hf'⟩, hf', hb⟩

theorem destroyCell_eq {b : Nat} {s : St V} {cells : List (Option V)} (hb : s.blocks b = some cells)
    {i : Nat} {w : V} (hc : cells[i]? = some (some w)) :
    ∃ s', destroyCell (some b) i s = (.ok (), s') ∧ Same b s s' ∧ s'.faults = s.faults ∧
      s'.blocks b = some (cells.set i none) := by
  unfold destroyCell
  rw [cell_eq hb hc]
  refine ⟨_, rfl, ⟨?_, ?_, ?_, ?_, ?_⟩, ?_, ?_⟩
  · intro b' hb'; simp [store, hb, upd, hb']
  · simp [store, hb]
  · simp [store, hb]
  · simp [store, hb]
  · intro h; simp [store, hb, h]
  · simp [store, hb]
  · simp [store, hb, upd]

/-- Construction loop into raw memory. -/
theorem constructLoop_spec {b : Nat} (src : Nat → M V V) (vs : List V) :
    ∀ (done : List (Option V)) (s : St V),
      s.blocks b = some (done ++ List.replicate vs.length none) →
      (∀ k (h : k < vs.length) s', Same b s s' → src (done.length + k) s' = (.ok vs[k], s')) →
      ∃ r s', constructLoop (some b) src vs.length done.length s = (r, s') ∧ Same b s s' ∧
        ((r = .ok () ∧ s'.blocks b = some (done ++ vs.map some)) ∨
         (∃ e, r = .exn e ∧ s.faults ≠ [] ∧ ∃ c, s'.blocks b = some c)) := by
  induction vs with
  | nil =>
    intro done s hb _
    exact ⟨.ok (), s, rfl, Same.refl b s, .inl ⟨rfl, by simpa using hb⟩⟩
  | cons v vs ih =>
    intro done s hb hsrc
    have h0 := hsrc 0 (by simp) s (Same.refl b s)
    simp only [Nat.add_zero, List.getElem_cons_zero] at h0
    simp only [List.length_cons]
    rw [constructLoop, bind_ok h0]
    have hc : (done ++ List.replicate (v :: vs).length none)[done.length]? = some none := by
      simp [List.replicate_succ]
    rcases construct_cases hb hc v with ⟨s1, h1, hs1, hb1⟩ | ⟨e, s1, h1, hs1, hf, hb1⟩
    · rw [bind_ok h1]
      have hb1' : s1.blocks b = some ((done ++ [some v]) ++ List.replicate vs.length none) := by
        rw [hb1]; simp [List.replicate_succ]
      obtain ⟨r, s2, h2, hs2, h3⟩ := ih (done ++ [some v]) s1 hb1' (by
        intro k hk s' hs'
        have := hsrc (k + 1) (by simp; omega) s' (hs1.trans hs')
        simp only [List.getElem_cons_succ] at this
        rw [← this]; congr 1; simp; omega)
      refine ⟨r, s2, by simpa using h2, hs1.trans hs2, ?_⟩
      rcases h3 with ⟨hr, hb2⟩ | ⟨e, hr, hf, hc⟩
      · exact .inl ⟨hr, by rw [hb2]; simp⟩
      · exact .inr ⟨e, hr, fun h => hf (hs1.faults h), hc⟩
    · rw [bind_exn h1]
      exact ⟨_, s1, rfl, hs1, .inr ⟨e, rfl, hf, _, hb1⟩⟩

/-- Assignment loop over live elements; the source may depend on what has been assigned already. -/
theorem assignLoop_spec {b : Nat} (src : Nat → M V V) (l vs : List V) (hl : vs.length = l.length) :
    ∀ (n i : Nat) (s : St V), i + n = l.length →
      s.blocks b = some ((vs.take i ++ l.drop i).map some) →
      (∀ k (h : k < vs.length) s', i ≤ k → Same b s s' →
        s'.blocks b = some ((vs.take k ++ l.drop k).map some) → src k s' = (.ok vs[k], s')) →
      ∃ r s', assignLoop (some b) src n i s = (r, s') ∧ Same b s s' ∧
        ((r = .ok () ∧ s'.blocks b = some (vs.map some)) ∨
         (∃ e, r = .exn e ∧ s.faults ≠ [] ∧ ∃ l' : List V, l'.length = l.length ∧ s'.blocks b = some (l'.map some))) := by
  intro n
  induction n with
  | zero =>
    intro i s hi hb _
    refine ⟨.ok (), s, rfl, Same.refl b s, .inl ⟨rfl, ?_⟩⟩
    rw [hb, List.take_of_length_le (by omega), List.drop_of_length_le (by omega)]; simp
  | succ n ih =>
    intro i s hi hb hsrc
    have hiv : i < vs.length := by omega
    have hil : i < l.length := by omega
    have h0 := hsrc i hiv s (Nat.le_refl _) (Same.refl b s) hb
    rw [assignLoop, bind_ok h0]
    have hlen : (vs.take i).length = i := by simp; omega
    have hc : ((vs.take i ++ l.drop i).map some)[i]? = some (some l[i]) := by
      rw [List.drop_eq_getElem_cons hil]
      simp [List.getElem?_append, hlen, Nat.min_eq_left (by omega : i ≤ vs.length)]
    rcases assignCell_cases hb hc vs[i] with ⟨s1, h1, hs1, hb1⟩ | ⟨e, s1, h1, hs1, hf, hb1⟩
    · rw [bind_ok h1]
      have hb1' : s1.blocks b = some ((vs.take (i + 1) ++ l.drop (i + 1)).map some) := by
        rw [hb1, List.take_succ_eq_append_getElem hiv, List.drop_eq_getElem_cons hil]
        congr 1
        rw [← List.map_set]
        congr 1
        rw [List.set_append_right _ _ (by omega), hlen, Nat.sub_self, List.set_cons_zero,
          List.append_assoc]
        rfl
      obtain ⟨r, s2, h2, hs2, h3⟩ := ih (i + 1) s1 (by omega) hb1' (by
        intro k hk s' hik hs' hbs'
        exact hsrc k hk s' (by omega) (hs1.trans hs') hbs')
      refine ⟨r, s2, h2, hs1.trans hs2, ?_⟩
      rcases h3 with h | ⟨e, hr, hf, hc⟩
      · exact .inl h
      · exact .inr ⟨e, hr, fun h => hf (hs1.faults h), hc⟩
    · rw [bind_exn h1]
      refine ⟨_, s1, rfl, hs1, .inr ⟨e, rfl, hf, _, ?_, hb1⟩⟩
      simp; omega

/-- Destruction loop. -/
theorem destroyLoop_spec {b : Nat} (l : List V) : ∀ (n : Nat) (s : St V), n ≤ l.length →
      s.blocks b = some ((l.take n).map some ++ List.replicate (l.length - n) none) →
      ∃ s', destroyLoop (some b) n s = (.ok (), s') ∧ Same b s s' ∧ s'.faults = s.faults ∧
        s'.blocks b = some (List.replicate l.length none) := by
  intro n
  induction n with
  | zero => intro s _ hb; exact ⟨s, rfl, Same.refl b s, rfl, by simpa using hb⟩
  | succ n ih =>
    intro s hn hb
    have hn' : n < l.length := by omega
    have hc : ((l.take (n + 1)).map some ++ List.replicate (l.length - (n + 1)) none)[n]? =
        some (some l[n]) := by
      rw [List.getElem?_append_left (by simp; omega)]
      simp [hn']
    obtain ⟨s1, h1, hs1, hf1, hb1⟩ := destroyCell_eq hb hc
    have hb1' : s1.blocks b = some ((l.take n).map some ++ List.replicate (l.length - n) none) := by
      rw [hb1]
      congr 1
      have hlen : ((l.take n).map some).length = n := by simp; omega
      rw [List.take_succ_eq_append_getElem hn', List.map_append, List.append_assoc,
        List.set_append_right _ _ (by omega), hlen]
      have : l.length - n = (l.length - (n + 1)) + 1 := by omega
      rw [this, List.replicate_succ]
      simp
    obtain ⟨s2, h2, hs2, hf2, hb2⟩ := ih s1 (by omega) hb1'
    refine ⟨s2, ?_, hs1.trans hs2, hf2.trans hf1, hb2⟩
    rw [destroyLoop, bind_ok h1, h2]

theorem live_raw (n : Nat) : live (List.replicate n (none : Option V)) = 0 := by
  simp [live]

/-- Destroying all elements of an owned block and freeing it. -/
theorem release_spec {b : Nat} {l : List V} {s : St V} (hb : s.blocks b = some (l.map some)) :
    ∃ s1 s2, destroyLoop (some b) l.length s = (.ok (), s1) ∧ free (some b) s1 = (.ok (), s2) ∧
      (∀ b', s2.blocks b' = if b' = b then none else s.blocks b') ∧ s2.vars = s.vars ∧
      s2.next = s.next ∧ s2.lost = s.lost ∧ s2.faults = s.faults := by
  obtain ⟨s1, h1, hs1, hf1, hb1⟩ := destroyLoop_spec l l.length s (Nat.le_refl _) (by simpa using hb)
  refine ⟨s1, { s1 with blocks := upd s1.blocks b none, lost := s1.lost + live (List.replicate l.length (none : Option V)) }, h1, by simp [free, hb1], ?_, hs1.vars, hs1.next, ?_, hf1⟩
  · intro b'
    simp only [upd]
    split
    · rfl
    · exact hs1.blocks b' ‹_›
  · simp [live_raw, hs1.lost]

/-- Allocation. -/
theorem alloc_cases {sz n : Nat} (hsz : 0 < sz) (hn : Fits sz n) (s : St V) :
    (∃ s', alloc sz n s = (.ok s.next, s') ∧
      (∀ b, s'.blocks b = if b = s.next then some (List.replicate n none) else s.blocks b) ∧
      s'.vars = s.vars ∧ s'.next = s.next + 1 ∧ s'.lost = s.lost ∧ (s.faults = [] → s'.faults = [])) ∨
    (∃ e s', alloc sz n s = (.exn e, s') ∧ s.faults ≠ [] ∧ s'.blocks = s.blocks ∧ s'.vars = s.vars ∧
      s'.next = s.next ∧ s'.lost = s.lost) := by
  unfold alloc
  rcases tick_cases .badAlloc s with ⟨f, hf, hf'⟩ | ⟨f, hf, hf'⟩
  · left
    rw [bind_ok hf]
    have : n * sz % 2 ^ 64 / sz = n := by
      rw [Nat.mod_eq_of_lt hn, Nat.mul_div_cancel _ hsz]
    exact ⟨_, rfl, fun b => by simp [upd, this], rfl, rfl, rfl, hf'⟩
  · right
    rw [bind_exn hf]
    exact ⟨_, _, rfl, hf', rfl, rfl, rfl, rfl⟩

end Helper.Arr
