import Verif.Arr.Count
set_option linter.unusedSectionVars false
/-!
# Properties C23-C31 of `Array`
-/
namespace Helper.Arr

variable {V : Type}

/-- Nothing is alive. -/
def noArrays : Spec V := fun _ => none

theorem filterMap_id_some (l : List V) : (l.map some).filterMap id = l := by
  induction l with
  | nil => rfl
  | cons a t ih => simp

theorem Sim.contents {sz : Nat} {s : St V} {sp : Spec V} (h : Sim sz s sp) (x : Nat) :
    contents s x = sp x := by
  match hx : sp x with
  | none => simp [Arr.contents, h.dead x hx]
  | some l =>
    obtain ⟨⟨n, p⟩, ho, h1, h2, h3⟩ := h.alive x l hx
    simp only at h1 h2 h3
    match p with
    | none =>
      have hl := h2 rfl
      subst hl
      simp at h1; subst h1
      simp [Arr.contents, ho]
    | some b =>
      have := h3 b rfl
      have ht : (l.map some).take n = l.map some := List.take_of_length_le (by simp; omega)
      simp only [Arr.contents, ho, this, ht]
      rw [if_pos ⟨by simp; omega, by simp⟩, filterMap_id_some]

theorem Sim.init (sz : Nat) (faults : List Bool) : Sim sz (St.init faults : St V) noArrays :=
  ⟨fun _ _ => rfl, fun _ _ => rfl, fun _ _ h => (by cases h), fun _ _ h => (by cases h),
   fun _ _ _ _ _ h => (by cases h)⟩

theorem Sim.eq_contents {sz : Nat} {s : St V} {sp : Spec V} (h : Sim sz s sp) : sp = Arr.contents s := by
  funext x; exact (h.contents x).symm

/-- Without faults every operation completes. -/
theorem op_ok {sz : Nat} (hsz : 0 < sz) {dflt : V} {s : St V} {sp sp' : Spec V} {o : Op V}
    (hm : Means sz dflt sp o sp') (h : Sim sz s sp) (hf : s.faults = []) :
    ∃ s', op sz dflt o s = (.ok (), s') ∧ Sim sz s' sp' ∧ s'.faults = [] ∧ s'.lost = s.lost ∧
      (∀ b, Leaked s b → Leaked s' b ∧ s'.blocks b = s.blocks b) ∧ (∀ b, Leaked s' b → Leaked s b ∨ Drops s o b) := by
  have := op_spec hsz hm h
  match hr : op sz dflt o s with
  | (r, s') =>
    rw [hr] at this
    obtain ⟨h1, h2, h3, h4⟩ := this
    rcases h4 with ⟨rfl, h5, h6⟩ | ⟨e, rfl, h5, _⟩
    · refine ⟨s', rfl, h5, h2 hf, h1, fun b hb => ?_, h6⟩
      obtain ⟨h7, h8⟩ := h3 b hb
      have h7 : s'.blocks b = s.blocks b := h7
      exact ⟨⟨by rw [h7]; exact hb.1, h8⟩, h7⟩
    · exact absurd hf h5

theorem run_ok {sz : Nat} (hsz : 0 < sz) {dflt : V} {sp sp' : Spec V} {os : List (Op V)}
    (hh : Hist sz dflt sp os sp') : ∀ {s : St V}, Sim sz s sp → s.faults = [] →
    ∃ s', run sz dflt os s = (List.replicate os.length (.ok ()), s') ∧ Sim sz s' sp' ∧ s'.faults = [] ∧
      s'.lost = s.lost ∧ ((∀ x y, x ≠ y → Op.assignMove x y ∉ os) → ∀ b, Leaked s' b → Leaked s b) := by
  induction hh with
  | nil => intro s h hf; exact ⟨s, rfl, h, hf, rfl, fun _ _ => id⟩
  | @cons sp sp' sp'' o os hm hh ih =>
    intro s h hf
    obtain ⟨s1, h1, h2, h3, h4, h5, h6⟩ := op_ok hsz hm h hf
    obtain ⟨s2, g1, g2, g3, g4, g5⟩ := ih h2 h3
    refine ⟨s2, ?_, g2, g3, g4.trans h4, ?_⟩
    · rw [run, h1]; simp only [g1, List.length_cons, List.replicate_succ]
    · intro hno b hb
      rcases h6 b (g5 (fun x y hxy hm => hno x y hxy (List.mem_cons_of_mem _ hm)) b hb) with h | h
      · exact h
      · exfalso
        match o, hno, h with
        | .assignMove x y, hno, h => exact hno x y h.1 (List.mem_cons_self ..)

/-! ## C23 -/

/-- C23: in every history of operations on any number of arrays that keeps the rules, started with
no array, every operation completes and the arrays found in memory are the lists obtained by the
same operations on values. -/
theorem C23_values_partial {sz : Nat} (hsz : 0 < sz) (dflt : V) {os : List (Op V)} {sp : Spec V}
    (h : Hist sz dflt noArrays os sp) :
    (run sz dflt os (St.init [])).1 = List.replicate os.length (.ok ()) ∧
    ∀ x, contents (run sz dflt os (St.init [])).2 x = sp x := by
  obtain ⟨s', h1, h2, _⟩ := run_ok hsz h (Sim.init sz []) rfl
  rw [h1]
  exact ⟨rfl, h2.contents⟩

/-- C23: a moved-from array is empty and the other one has its contents, whether constructed or
assigned. -/
theorem C23_moved_partial {sz : Nat} (hsz : 0 < sz) (dflt : V) {os : List (Op V)} {sp : Spec V}
    (h : Hist sz dflt noArrays os sp) {x y : Nat} {l : List V} (hxy : x ≠ y) (hy : sp y = some l) :
    (sp x = none →
      contents (run sz dflt (os ++ [.ctorMove x y]) (St.init [])).2 y = some [] ∧
      contents (run sz dflt (os ++ [.ctorMove x y]) (St.init [])).2 x = some l) ∧
    (sp x ≠ none →
      contents (run sz dflt (os ++ [.assignMove x y]) (St.init [])).2 y = some [] ∧
      contents (run sz dflt (os ++ [.assignMove x y]) (St.init [])).2 x = some l) := by
  have app : ∀ {sp0 sp1 sp2 : Spec V} {os : List (Op V)} {o : Op V}, Hist sz dflt sp0 os sp1 →
      Means sz dflt sp1 o sp2 → Hist sz dflt sp0 (os ++ [o]) sp2 := by
    intro sp0 sp1 sp2 os o hh hm
    induction hh with
    | nil => exact .cons hm .nil
    | cons h _ ih => exact .cons h (ih hm)
  constructor
  · intro hx
    have := (C23_values_partial hsz dflt (app h (.ctorMove hx hy))).2
    refine ⟨by rw [this y, upd_same], by rw [this x, upd_ne _ _ hxy, upd_same]⟩
  · intro hx
    obtain ⟨k, hk⟩ := Option.ne_none_iff_exists'.mp hx
    have := (C23_values_partial hsz dflt (app h (.assignMove hk hy hxy))).2
    refine ⟨by rw [this y, upd_same], by rw [this x, upd_ne _ _ hxy, upd_same]⟩

/-- The rules can be kept: a history with copies, resizing and a move. -/
example : ∃ sp, Hist 8 0 noArrays
    [.ctorRange 0 (.ext [1, 2, 3]), .ctorCopy 1 0, .write 0 1 9, .resize 1 5, .ctorMove 2 0] sp ∧
    sp 0 = some [] ∧ sp 1 = some [1, 2, 3, 0, 0] ∧ sp 2 = some [1, 9, 3] := by
  refine ⟨_, .cons (.ctorRange (vs := [1, 2, 3]) rfl (by unfold Fits; decide) rfl) (.cons (.ctorCopy (l := [1, 2, 3]) rfl rfl)
    (.cons (.write (l := [1, 2, 3]) rfl (by decide)) (.cons (.resize (l := [1, 2, 3]) rfl (by unfold Fits; decide))
    (.cons (.ctorMove (l := [1, 9, 3]) rfl rfl) .nil)))), rfl, rfl, rfl⟩

example : (run 8 0 [.ctorRange 0 (.ext [1, 2, 3]), .ctorCopy 1 0, .write 0 1 9, .resize 1 5, .ctorMove 2 0]
      (St.init [])).1 = [.ok (), .ok (), .ok (), .ok (), .ok ()] ∧
    contents (run 8 0 [.ctorRange 0 (.ext [1, 2, 3]), .ctorCopy 1 0, .write 0 1 9, .resize 1 5, .ctorMove 2 0]
      (St.init [])).2 1 = some [1, 2, 3, 0, 0] := by decide +kernel

/-! ## C24 -/

/-- A state without pending faults in which memory represents lists; every fault-free history that
keeps the rules leads to such states (`valid_run`). -/
def Valid (sz : Nat) (s : St V) : Prop := Sim sz s (contents s) ∧ s.faults = []

theorem valid_run {sz : Nat} (hsz : 0 < sz) (dflt : V) {os : List (Op V)} {sp : Spec V}
    (h : Hist sz dflt noArrays os sp) : Valid sz (run sz dflt os (St.init [])).2 := by
  obtain ⟨s', h1, h2, h3, _⟩ := run_ok hsz h (Sim.init sz []) rfl
  rw [h1]
  exact ⟨h2.eq_contents ▸ h2, h3⟩

/-- One operation in a valid state. -/
theorem valid_op {sz : Nat} (hsz : 0 < sz) {dflt : V} {s : St V} {sp' : Spec V} {o : Op V}
    (hm : Means sz dflt (contents s) o sp') (h : Valid sz s) :
    ∃ s', op sz dflt o s = (.ok (), s') ∧ Valid sz s' ∧ ∀ x, contents s' x = sp' x := by
  obtain ⟨s', h1, h2, h3, _⟩ := op_ok hsz hm h.1 h.2
  exact ⟨s', h1, ⟨h2.eq_contents ▸ h2, h3⟩, h2.contents⟩

/-- C24: after copy construction or copy assignment both arrays have the same contents, and an
operation called on a third array or on either of them changes only the array it is called on
(moves and `swap` also their argument). -/
theorem C24_copy {sz : Nat} (hsz : 0 < sz) {dflt : V} {s : St V} (h : Valid sz s) {x y : Nat} {l : List V}
    (hy : contents s y = some l) :
    (contents s x = none → ∃ s', op sz dflt (.ctorCopy x y) s = (.ok (), s') ∧ Valid sz s' ∧
      contents s' x = some l ∧ ∀ z, z ≠ x → contents s' z = contents s z) ∧
    (contents s x ≠ none → ∃ s', op sz dflt (.assignCopy x y) s = (.ok (), s') ∧ Valid sz s' ∧
      contents s' x = some l ∧ ∀ z, z ≠ x → contents s' z = contents s z) := by
  constructor
  · intro hx
    obtain ⟨s', h1, h2, h3⟩ := valid_op hsz (dflt := dflt) (.ctorCopy hx hy) h
    exact ⟨s', h1, h2, by rw [h3, upd_same], fun z hz => by rw [h3, upd_ne _ _ hz]⟩
  · intro hx
    obtain ⟨k, hk⟩ := Option.ne_none_iff_exists'.mp hx
    obtain ⟨s', h1, h2, h3⟩ := valid_op hsz (dflt := dflt) (.assignCopy hk hy) h
    exact ⟨s', h1, h2, by rw [h3, upd_same], fun z hz => by rw [h3, upd_ne _ _ hz]⟩

/-- Arrays that an operation may change. -/
def Op.changes : Op V → List Nat
  | .ctorMove x y => [x, y]
  | .assignMove x y => [x, y]
  | .swap x y => [x, y]
  | o => [o.target]

/-- C24: no operation changes the contents of an array other than the one it is called on (and, for
moves and `swap`, its argument): storage is never shared. -/
theorem C24_independent {sz : Nat} (hsz : 0 < sz) {dflt : V} {s : St V} (h : Valid sz s) {o : Op V}
    {sp' : Spec V} (hm : Means sz dflt (contents s) o sp') {z : Nat} (hz : z ∉ o.changes) :
    contents (op sz dflt o s).2 z = contents s z := by
  obtain ⟨s', h1, h2, h3⟩ := valid_op hsz hm h
  rw [h1, h3]
  cases hm <;> simp [Op.changes, Op.target] at hz <;> simp [upd, hz]

/-- C24: `swap` exchanges the contents of exactly two arrays. -/
theorem C24_swap {sz : Nat} (hsz : 0 < sz) {dflt : V} {s : St V} (h : Valid sz s) {x y : Nat} {k l : List V}
    (hx : contents s x = some k) (hy : contents s y = some l) :
    ∃ s', op sz dflt (.swap x y) s = (.ok (), s') ∧ Valid sz s' ∧ contents s' x = some l ∧
      contents s' y = some k ∧ ∀ z, z ≠ x → z ≠ y → contents s' z = contents s z := by
  obtain ⟨s', h1, h2, h3⟩ := valid_op hsz (dflt := dflt) (.swap hx hy) h
  refine ⟨s', h1, h2, ?_, by rw [h3, upd_same], fun z hzx hzy => by rw [h3, upd_ne _ _ hzy, upd_ne _ _ hzx]⟩
  rw [h3]
  by_cases hxy : x = y
  · subst hxy; rw [upd_same]; rw [hx] at hy; exact hy
  · rw [upd_ne _ _ hxy, upd_same]

/-- Writing to a copy does not change the original, on a concrete run. -/
example : let s := (run 8 0 [.ctorFill 0 3 (.ext 7), .ctorCopy 1 0, .write 1 0 5] (St.init [])).2
    contents s 0 = some [7, 7, 7] ∧ contents s 1 = some [5, 7, 7] := by decide +kernel

/-! ## C26 -/

/-- C26: `resize(n)` and `resize(n,t)` keep the common prefix and fill the rest, also when `t` is an
element of the array; nothing else changes. -/
theorem C26_resize_partial {sz : Nat} (hsz : 0 < sz) {dflt : V} {s : St V} (h : Valid sz s) {x n : Nat} {l : List V}
    (hx : contents s x = some l) (hn : n * sz < 2 ^ 64) :
    (∃ s' l', op sz dflt (.resize x n) s = (.ok (), s') ∧ Valid sz s' ∧ contents s' x = some l' ∧
      l'.length = n ∧ (∀ i, i < n → l'[i]? = if i < l.length then l[i]? else some dflt) ∧
      ∀ z, z ≠ x → contents s' z = contents s z) ∧
    (∀ a t, argVal (contents s) a = some t →
      ∃ s' l', op sz dflt (.resizeVal x n a) s = (.ok (), s') ∧ Valid sz s' ∧ contents s' x = some l' ∧
        l'.length = n ∧ (∀ i, i < n → l'[i]? = if i < l.length then l[i]? else some t) ∧
        ∀ z, z ≠ x → contents s' z = contents s z) := by
  have hget : ∀ (v : V), (l.take n ++ List.replicate (n - l.length) v).length = n ∧
      ∀ i, i < n → (l.take n ++ List.replicate (n - l.length) v)[i]? = if i < l.length then l[i]? else some v := by
    intro v
    refine ⟨by simp; omega, ?_⟩
    intro i hi
    split
    · rename_i hil
      rw [List.getElem?_append_left (by simp; omega), List.getElem?_take, if_pos hi]
    · rename_i hil
      rw [List.getElem?_append_right (by simp; omega), List.getElem?_replicate]
      rw [if_pos (by simp; omega)]
  constructor
  · obtain ⟨s', h1, h2, h3⟩ := valid_op hsz (dflt := dflt) (.resize hx hn) h
    exact ⟨s', _, h1, h2, by rw [h3, upd_same], (hget dflt).1, (hget dflt).2, fun z hz => by rw [h3, upd_ne _ _ hz]⟩
  · intro a t ha
    obtain ⟨s', h1, h2, h3⟩ := valid_op hsz (dflt := dflt) (.resizeVal hx hn ha) h
    exact ⟨s', _, h1, h2, by rw [h3, upd_same], (hget t).1, (hget t).2, fun z hz => by rw [h3, upd_ne _ _ hz]⟩

/-- C26: `reallocate(n)`. -/
theorem C26_reallocate_partial {sz : Nat} (hsz : 0 < sz) {dflt : V} {s : St V} (h : Valid sz s) {x n : Nat} {l : List V}
    (hx : contents s x = some l) (hn : n * sz < 2 ^ 64) :
    ∃ s', op sz dflt (.reallocate x n) s = (.ok (), s') ∧ Valid sz s' ∧
      (n ≠ l.length → contents s' x = some (List.replicate n dflt)) ∧
      (n = l.length → contents s' x = some l) ∧
      ∀ z, z ≠ x → contents s' z = contents s z := by
  obtain ⟨s', h1, h2, h3⟩ := valid_op hsz (dflt := dflt) (.reallocate hx hn) h
  refine ⟨s', h1, h2, fun hne => ?_, fun he => ?_, fun z hz => by rw [h3, upd_ne _ _ hz]⟩
  · rw [h3, upd_same, if_neg hne]
  · rw [h3, upd_same, if_pos he]

example : let s := (run 8 0 [.ctorRange 0 (.ext [1, 2, 3])] (St.init [])).2
    contents (op 8 0 (.resizeVal 0 5 (.elem 0 1)) s).2 0 = some [1, 2, 3, 2, 2] ∧
    contents (op 8 0 (.resize 0 2) s).2 0 = some [1, 2] ∧
    contents (op 8 0 (.reallocate 0 2) s).2 0 = some [0, 0] ∧
    contents (op 8 0 (.reallocate 0 3) s).2 0 = some [1, 2, 3] := by decide +kernel

/-! ## C27 -/

theorem Owns.readOut {s : St V} {o : Obj} {l : List V} (h : Owns s o l) {i : Nat} (hi : l.length ≤ i) :
    (readCell o.ptr i s).1.isUB = true ∧ (readCell o.ptr i s).2 = s := by
  match hp : o.ptr with
  | none => exact ⟨rfl, rfl⟩
  | some b =>
    have := h.2.2 b hp
    simp [readCell, M.look, cell, this, hi, Res.isUB]

theorem lt64 {sz n : Nat} (hsz : 0 < sz) (h : Fits sz n) : n < 2 ^ 64 :=
  Nat.lt_of_le_of_lt (Nat.le_mul_of_pos_right _ hsz) h

/-- C27: `at(i)` returns the element or throws `out_of_range`; `operator[]`, `front` and `back` are
defined exactly when the element exists. None of them changes anything. -/
theorem C27_access {sz : Nat} (hsz : 0 < sz) {s : St V} (h : Valid sz s) {x : Nat} {l : List V}
    (hx : contents s x = some l) :
    (∀ i, atRead x i s = (match l[i]? with | some v => .ok v | none => .exn .outOfRange, s)) ∧
    (∀ i v, l[i]? = some v → index x i s = (.ok v, s)) ∧
    (∀ i, l[i]? = none → (index x i s).1.isUB = true) ∧
    (∀ v, l.head? = some v → front x s = (.ok v, s)) ∧
    (l = [] → (front x s).1.isUB = true) ∧
    (∀ v, l.getLast? = some v → back x s = (.ok v, s)) ∧
    (l = [] → (back x s).1.isUB = true) ∧
    size x s = (.ok l.length, s) ∧ isEmpty x s = (.ok l.isEmpty, s) := by
  obtain ⟨o, ho, hw⟩ := h.1.alive x l hx
  have hg := getObj_eq ho
  have h64 := lt64 hsz (h.1.fits x l hx)
  refine ⟨?_, ?_, ?_, ?_, ?_, ?_, ?_, ?_, ?_⟩
  · intro i
    rw [atRead, bind_ok hg, hw.1]
    by_cases hi : i < l.length
    · rw [if_pos hi, hw.read hi (fun _ _ => rfl), List.getElem?_eq_getElem hi]
    · rw [if_neg hi, List.getElem?_eq_none (by omega)]; rfl
  · intro i v hv
    obtain ⟨hi, he⟩ := List.getElem?_eq_some_iff.mp hv
    rw [index, bind_ok hg, hw.read hi (fun _ _ => rfl), he]
  · intro i hi
    rw [index, bind_ok hg]
    exact (hw.readOut (List.getElem?_eq_none_iff.mp hi)).1
  · intro v hv
    rw [List.head?_eq_getElem?] at hv
    obtain ⟨hi, he⟩ := List.getElem?_eq_some_iff.mp hv
    rw [front, bind_ok hg, hw.read hi (fun _ _ => rfl), he]
  · intro hl
    rw [front, bind_ok hg]
    exact (hw.readOut (by simp [hl])).1
  · intro v hv
    rw [List.getLast?_eq_getElem?] at hv
    obtain ⟨hi, he⟩ := List.getElem?_eq_some_iff.mp hv
    have h1 : (o.size + (2 ^ 64 - 1)) % 2 ^ 64 = l.length - 1 := by
      rw [hw.1]; omega
    rw [back, bind_ok hg, h1, hw.read hi (fun _ _ => rfl), he]
  · intro hl
    rw [back, bind_ok hg]
    exact (hw.readOut (by simp [hl])).1
  · rw [size, bind_ok hg, hw.1]; rfl
  · rw [isEmpty, bind_ok hg, hw.1]; cases l <;> rfl

/-- C27: the kind of undefined behaviour of `operator[]`, in any state: of a null pointer, of storage that has been freed, outside
of the storage, of an element that is not constructed. -/
theorem C27_undefined {s : St V} {x i : Nat} {o : Obj} (ho : s.vars x = some o) :
    (o.ptr = none → index x i s = (.ub .nullDeref, s)) ∧
    ∀ b, o.ptr = some b →
      (s.blocks b = none → index x i s = (.ub .dangling, s)) ∧
      ∀ cells, s.blocks b = some cells →
        (cells.length ≤ i → index x i s = (.ub .outOfBounds, s)) ∧
        (cells[i]? = some none → index x i s = (.ub .notAlive, s)) := by
  refine ⟨fun h => ?_, fun b h => ⟨fun h1 => ?_, fun cells h1 => ⟨fun h2 => ?_, fun h2 => ?_⟩⟩⟩
  · simp [index, bind_ok (getObj_eq ho), readCell, M.look, cell, h]
  · simp [index, bind_ok (getObj_eq ho), readCell, M.look, cell, h, h1]
  · simp [index, bind_ok (getObj_eq ho), readCell, M.look, cell, h, h1, List.getElem?_eq_none h2]
  · simp [index, bind_ok (getObj_eq ho), readCell, M.look, cell, h, h1, h2]

/-- C27: writing through `at(i)`. -/
theorem C27_write {sz : Nat} (hsz : 0 < sz) {dflt : V} {s : St V} (h : Valid sz s) {x : Nat} {l : List V}
    (hx : contents s x = some l) (i : Nat) (v : V) :
    (i < l.length → ∃ s', atWrite x i v s = (.ok (), s') ∧ op sz dflt (.write x i v) s = (.ok (), s') ∧
      Valid sz s' ∧ contents s' x = some (l.set i v) ∧ ∀ z, z ≠ x → contents s' z = contents s z) ∧
    (l.length ≤ i → atWrite x i v s = (.exn .outOfRange, s) ∧ (op sz dflt (.write x i v) s).1.isUB = true) := by
  obtain ⟨o, ho, hw⟩ := h.1.alive x l hx
  have hg := getObj_eq ho
  constructor
  · intro hi
    obtain ⟨s', h1, h2, h3⟩ := valid_op hsz (dflt := dflt) (.write (v := v) hx hi) h
    refine ⟨s', ?_, h1, h2, by rw [h3, upd_same], fun z hz => by rw [h3, upd_ne _ _ hz]⟩
    rw [← h1, atWrite, op, bind_ok hg, bind_ok hg, hw.1, if_pos hi]
  · intro hi
    constructor
    · rw [atWrite, bind_ok hg, hw.1, if_neg (by omega)]; rfl
    · rw [op, bind_ok hg]
      match hp : o.ptr with
      | none => rfl
      | some b =>
        have := hw.2.2 b hp
        simp [assignCell, cell, this, hi, Res.isUB]

example : let s := (run 8 0 [.ctorRange 0 (.ext [4, 5, 6]), .ctorDefault 1] (St.init [])).2
    (atRead 0 2 s).1 = .ok 6 ∧ (atRead 0 3 s).1 = .exn .outOfRange ∧ (index 0 3 s).1 = .ub .outOfBounds ∧
    (back 0 s).1 = .ok 6 ∧ (back 1 s).1 = .ub .nullDeref ∧ (front 0 s).1 = .ok 4 := by decide +kernel

/-! ## C28 -/

theorem eqLoop_spec {s : St V} (ne : V → V → Bool) {ox oy : Obj} {k l : List V} (hk : Owns s ox k)
    (hl : Owns s oy l) : ∀ n i, i + n = k.length → k.length = l.length →
    eqLoop ne ox.ptr oy.ptr n i s =
      (.ok (decide (∀ j (hj : j < k.length) (hj' : j < l.length), i ≤ j → ne k[j] l[j] = false)), s) := by
  intro n
  induction n with
  | zero =>
    intro i hi hkl
    rw [eqLoop, M.pure]
    congr 2
    symm; rw [decide_eq_true_eq]
    intro j hj _ hij; omega
  | succ n ih =>
    intro i hi hkl
    have hik : i < k.length := by omega
    have hil : i < l.length := by omega
    rw [eqLoop, bind_ok (hk.read hik (fun _ _ => rfl)), bind_ok (hl.read hil (fun _ _ => rfl))]
    by_cases hne : ne k[i] l[i] = true
    · rw [if_pos hne, M.pure]
      congr 2
      symm; rw [decide_eq_false_iff_not]
      intro hall
      have := hall i hik hil (Nat.le_refl _)
      rw [hne] at this; cases this
    · rw [if_neg hne, ih (i + 1) (by omega) hkl]
      congr 2
      rw [decide_eq_decide]
      constructor
      · intro hall j hj hj' hij
        by_cases hji : j = i
        · subst hji; simpa using hne
        · exact hall j hj hj' (by omega)
      · intro hall j hj hj' hij
        exact hall j hj hj' (by omega)

/-- C28: `a==b` compares sizes and then elements with the elements' `!=`, is always defined, and
changes nothing; `a!=b` is the negation. -/
theorem C28_eq {sz : Nat} {s : St V} (h : Valid sz s) {x y : Nat} {k l : List V} (ne : V → V → Bool)
    (hx : contents s x = some k) (hy : contents s y = some l) :
    ∃ r : Bool, eq ne x y s = (.ok r, s) ∧ neq ne x y s = (.ok (!r), s) ∧
      (r = true ↔ k.length = l.length ∧
        ∀ j (hj : j < k.length) (hj' : j < l.length), ne k[j] l[j] = false) := by
  obtain ⟨ox, hox, hwx⟩ := h.1.alive x k hx
  obtain ⟨oy, hoy, hwy⟩ := h.1.alive y l hy
  have key : ∀ r, eq ne x y s = (.ok r, s) → neq ne x y s = (.ok (!r), s) := by
    intro r hr; rw [neq, bind_ok hr]; rfl
  by_cases hs : ox.size = oy.size
  · have hkl : k.length = l.length := by rw [← hwx.1, ← hwy.1]; exact hs
    have : eq ne x y s = eqLoop ne ox.ptr oy.ptr k.length 0 s := by
      rw [eq, bind_ok (getObj_eq hox), bind_ok (getObj_eq hoy), if_neg (by simp [hs]), hwx.1]
    rw [eqLoop_spec ne hwx hwy k.length 0 (by omega) hkl] at this
    refine ⟨_, this, key _ this, ?_⟩
    rw [decide_eq_true_eq]
    constructor
    · intro hall; exact ⟨hkl, fun j hj hj' => hall j hj hj' (by omega)⟩
    · intro ⟨_, hall⟩ j hj hj' _; exact hall j hj hj'
  · have : eq ne x y s = (.ok false, s) := by
      rw [eq, bind_ok (getObj_eq hox), bind_ok (getObj_eq hoy), if_pos hs]; rfl
    refine ⟨_, this, key _ this, ?_⟩
    constructor
    · intro h; cases h
    · intro ⟨hkl, _⟩; exact absurd (by rw [hwx.1, hwy.1]; exact hkl) hs

/-- C28: when the elements' `!=` means "different", `==` on arrays is equality of their contents. -/
theorem C28_eq_iff [DecidableEq V] {sz : Nat} {s : St V} (h : Valid sz s) {x y : Nat} {k l : List V}
    (hx : contents s x = some k) (hy : contents s y = some l) :
    eq (fun a b => decide (a ≠ b)) x y s = (.ok (decide (k = l)), s) := by
  obtain ⟨r, h1, _, h3⟩ := C28_eq h (fun a b : V => decide (a ≠ b)) hx hy
  rw [h1]
  congr 2
  rw [Bool.eq_iff_iff, h3, decide_eq_true_eq]
  constructor
  · intro ⟨hlen, hall⟩
    apply List.ext_getElem hlen
    intro i hi hi'
    simpa using hall i hi hi'
  · intro he; subst he; simp

example : let s := (run 8 0 [.ctorRange 0 (.ext [1, 2]), .ctorRange 1 (.ext [1, 3]), .ctorCopy 2 0,
      .ctorDefault 3, .ctorSize 4 0] (St.init [])).2
    (eq (fun a b => decide (a ≠ b)) 0 2 s).1 = .ok true ∧ (eq (fun a b => decide (a ≠ b)) 0 1 s).1 = .ok false ∧
    (neq (fun a b => decide (a ≠ b)) 3 0 s).1 = .ok true ∧ (eq (fun a b => decide (a ≠ b)) 3 4 s).1 = .ok true := by
  decide +kernel

end Helper.Arr
