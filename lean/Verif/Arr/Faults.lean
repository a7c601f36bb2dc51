import Verif.Arr.Props
set_option linter.unusedSectionVars false
/-!
# Properties C25, C29, C30, C31 and C70 of `Array`: leaks, exceptions, huge sizes, aliases
-/
namespace Helper.Arr

variable {V : Type}

/-! ## C25 -/

/-- C25, partial: in every fault-free history without a move assignment between distinct arrays that
ends with all arrays destroyed, nothing is left allocated and every element constructed has been
destroyed; no element was lost on the way. (Releasing a block or destroying an element a second
time, and access to freed or raw memory, would be undefined behaviour: by `C23_values_partial` every
operation completes.) Missing: move assignment, see `C25_refuted`. -/
theorem C25_noLeak_partial {sz : Nat} (hsz : 0 < sz) (dflt : V) {os : List (Op V)} {sp : Spec V}
    (h : Hist sz dflt noArrays os sp) (hend : ∀ x, sp x = none)
    (hno : ∀ x y, x ≠ y → Op.assignMove x y ∉ os) :
    let s := (run sz dflt os (St.init [])).2
    (∀ b, s.blocks b = none) ∧ s.built = s.destroyed ∧ s.lost = 0 := by
  obtain ⟨s', h1, h2, h3, h4, h5⟩ := run_ok hsz h (Sim.init sz []) rfl
  have hbal := Bal.run sz dflt os (St.init []) (Bal.init [])
  simp only [h1] at hbal ⊢
  have hblocks : ∀ b, s'.blocks b = none := by
    intro b
    apply Classical.byContradiction
    intro hb
    refine absurd (h5 hno b ⟨hb, ?_⟩).1 (fun h => h rfl)
    rintro ⟨x, o, hx, _⟩
    rw [h2.dead x (hend x)] at hx; cases hx
  refine ⟨hblocks, ?_, h4⟩
  have := hbal.empty hblocks
  rw [h4] at this
  exact this

/-- C25, partial: at every moment of such a history each allocated block belongs to exactly one live
array. -/
theorem C25_owned_partial {sz : Nat} (hsz : 0 < sz) (dflt : V) {os : List (Op V)} {sp : Spec V}
    (h : Hist sz dflt noArrays os sp) (hno : ∀ x y, x ≠ y → Op.assignMove x y ∉ os) :
    let s := (run sz dflt os (St.init [])).2
    ∀ b, s.blocks b ≠ none → ∃ x, ptrOf s x = some b ∧ ∀ y, ptrOf s y = some b → y = x := by
  obtain ⟨s', h1, h2, h3, h4, h5⟩ := run_ok hsz h (Sim.init sz []) rfl
  simp only [h1]
  intro b hb
  have : Owned s' b := Classical.byContradiction fun hn => absurd (h5 hno b ⟨hb, hn⟩).1 (fun h => h rfl)
  obtain ⟨x, o, hx, hp⟩ := this
  refine ⟨x, by rw [ptrOf_eq hx]; exact hp, ?_⟩
  intro y hy
  obtain ⟨o', hy', hp'⟩ := ptrOf_some hy
  exact h2.distinct y x o' o b hy' hx hp' hp

/-- C25: every constructor call is matched by a destructor call, a lost element, or an element still
alive in some block; for every program whatsoever. -/
theorem C25_balance (sz : Nat) (dflt : V) (faults : List Bool) (os : List (Op V)) :
    let s := (run sz dflt os (St.init faults)).2
    s.built = s.destroyed + s.lost + liveUpTo s.blocks s.next :=
  (Bal.run sz dflt os (St.init faults) (Bal.init faults)).2

/-- A leaked block is never released: whatever the program does next within the rules, the block
stays allocated with the same contents and no array refers to it. -/
theorem leak_forever {sz : Nat} (hsz : 0 < sz) (dflt : V) {sp sp' : Spec V} {os : List (Op V)}
    (hh : Hist sz dflt sp os sp') : ∀ {s : St V}, Sim sz s sp → s.faults = [] → ∀ b, Leaked s b →
    Leaked (run sz dflt os s).2 b ∧ (run sz dflt os s).2.blocks b = s.blocks b := by
  induction hh with
  | nil => intro s _ _ b hb; exact ⟨hb, rfl⟩
  | cons hm hh ih =>
    intro s h hf b hb
    obtain ⟨s1, h1, h2, h3, h4, h5, h6⟩ := op_ok hsz hm h hf
    obtain ⟨g1, g2⟩ := h5 b hb
    obtain ⟨g3, g4⟩ := ih h2 h3 b g1
    rw [run, h1]
    exact ⟨g3, g4.trans g2⟩

/-- C25 is false, in general: a move assignment to an array with storage forgets that storage; the
block is never released by any continuation of the program. -/
theorem C25_moveAssign_leaks {sz : Nat} (hsz : 0 < sz) {dflt : V} {s : St V} (h : Valid sz s) {x y b : Nat}
    {k l : List V} (hx : contents s x = some k) (hy : contents s y = some l) (hxy : x ≠ y)
    (hb : ptrOf s x = some b) :
    ∃ s', op sz dflt (.assignMove x y) s = (.ok (), s') ∧ s'.blocks b = some (k.map some) ∧ Leaked s' b ∧
      ∀ os sp, Hist sz dflt (contents s') os sp →
        Leaked (run sz dflt os s').2 b ∧ (run sz dflt os s').2.blocks b = some (k.map some) := by
  obtain ⟨s', h1, h2, h3, _⟩ := op_ok hsz (dflt := dflt) (.assignMove hx hy hxy) h.1 h.2
  obtain ⟨ox, hox, hwx⟩ := h.1.alive x k hx
  obtain ⟨oy, hoy, hwy⟩ := h.1.alive y l hy
  have hbx : s.blocks b = some (k.map some) := hwx.2.2 b (by rw [← ptrOf_eq hox]; exact hb)
  have hs' : s' = { s with vars := upd (upd s.vars x (some oy)) y (some ⟨0, none⟩) } := by
    rw [op, bind_ok (getObj_eq hox), bind_ok (getObj_eq hoy), if_pos hxy] at h1
    exact (congrArg Prod.snd h1).symm
  have hblk : s'.blocks b = some (k.map some) := by rw [hs']; exact hbx
  have hl : Leaked s' b := by
    refine ⟨by rw [hblk]; simp, ?_⟩
    rintro ⟨z, o, hz, hp⟩
    rw [hs'] at hz
    have hz : upd (upd s.vars x (some oy)) y (some ⟨0, none⟩) z = some o := hz
    rw [ptrOf_eq hox] at hb
    by_cases hzy : z = y
    · rw [hzy, upd_same] at hz; cases hz; cases hp
    · rw [upd_ne _ _ hzy] at hz
      by_cases hzx : z = x
      · rw [hzx, upd_same] at hz; cases hz
        exact hxy (h.1.distinct x y ox oy b hox hoy hb hp)
      · rw [upd_ne _ _ hzx] at hz
        exact hzx (h.1.distinct z x o ox b hz hox hp hb)
  refine ⟨s', h1, hblk, hl, ?_⟩
  intro os sp hh
  obtain ⟨g1, g2⟩ := leak_forever hsz dflt hh (h2.eq_contents ▸ h2) h3 b hl
  exact ⟨g1, g2.trans hblk⟩

/-- C25 is false: two arrays of one element, `x = std::move(y)`, both destroyed: one element is never
destroyed and its block never freed. -/
theorem C25_refuted :
    let s := (run 8 (0 : Nat) [.ctorSize 0 1, .ctorSize 1 1, .assignMove 0 1, .destroy 0, .destroy 1]
      (St.init [])).2
    (run 8 (0 : Nat) [.ctorSize 0 1, .ctorSize 1 1, .assignMove 0 1, .destroy 0, .destroy 1]
      (St.init [])).1 = List.replicate 5 (.ok ()) ∧
    s.vars 0 = none ∧ s.vars 1 = none ∧ s.blocks 0 = some [some 0] ∧ s.built = 2 ∧ s.destroyed = 1 := by
  decide +kernel

example : let s := (run 8 (0 : Nat) [.ctorSize 0 2, .ctorCopy 1 0, .resize 1 5, .assignCopy 0 1, .destroy 0, .destroy 1]
      (St.init [])).2
    s.blocks 0 = none ∧ s.blocks 1 = none ∧ s.blocks 2 = none ∧ s.blocks 3 = none ∧ s.next = 4 ∧
    s.built = 14 ∧ s.destroyed = 14 := by decide +kernel

/-! ## C29 -/

/-- States reached by a client that keeps the rules, catches every exception and goes on, provided
that none of the two dangerous operations (`Danger`: copy assignment between different sizes,
`reallocate` to a different size) has thrown. -/
inductive Reach (sz : Nat) (dflt : V) (faults : List Bool) : St V → Prop
  | init : Reach sz dflt faults (St.init faults)
  | step {s s' : St V} {o : Op V} {sp' : Spec V} {r : Res Unit} : Reach sz dflt faults s →
      Means sz dflt (contents s) o sp' → op sz dflt o s = (r, s') →
      (r ≠ .ok () → ¬ Danger (contents s) o) → Reach sz dflt faults s'

theorem Reach.sim {sz : Nat} (hsz : 0 < sz) {dflt : V} {faults : List Bool} {s : St V}
    (h : Reach sz dflt faults s) : Sim sz s (contents s) := by
  induction h with
  | init => have := Sim.init (V := V) sz faults; exact this.eq_contents ▸ this
  | @step s s' o sp' r hr hm ho hd ih =>
    have := op_spec hsz hm ih
    rw [ho] at this
    obtain ⟨_, _, _, h4⟩ := this
    rcases h4 with ⟨_, h5, _⟩ | ⟨e, he, _, h5⟩
    · have h5 : Sim sz s' sp' := h5
      exact h5.eq_contents ▸ h5
    · have he : r = .exn e := he
      rcases h5 with h5 | ⟨sp'', h5, _⟩
      · exact absurd h5 (hd (by rw [he]; simp))
      · have h5 : Sim sz s' sp'' := h5
        exact h5.eq_contents ▸ h5

/-- Destroying all arrays of a list completes. -/
theorem destroy_all {sz : Nat} (hsz : 0 < sz) (dflt : V) : ∀ (xs : List Nat) {s : St V},
    Sim sz s (contents s) → xs.Nodup → (∀ x ∈ xs, contents s x ≠ none) →
    (run sz dflt (xs.map Op.destroy) s).1 = List.replicate xs.length (.ok ())
  | [], _, _, _, _ => rfl
  | x :: xs, s, h, hnd, hal => by
    obtain ⟨l, hl⟩ := Option.ne_none_iff_exists'.mp (hal x (by simp))
    have hs := op_spec hsz (dflt := dflt) (.destroy hl) h
    obtain ⟨o, ho, hw⟩ := h.alive x l hl
    obtain ⟨s1, s2, h1, h2, _⟩ := release_obj hw
    have hrun : op sz dflt (.destroy x) s = (.ok (), { s2 with vars := upd s2.vars x none }) := by
      rw [op, bind_ok (getObj_eq ho), bind_ok h1, bind_ok h2]
    rw [hrun] at hs
    obtain ⟨_, _, _, h4⟩ := hs
    rcases h4 with ⟨_, h5, _⟩ | ⟨e, he, _⟩
    · have h5 : Sim sz ({ s2 with vars := upd s2.vars x none } : St V) _ := h5
      have h6 := h5.eq_contents
      have ih := destroy_all hsz dflt xs (s := { s2 with vars := upd s2.vars x none }) (h6 ▸ h5)
        (List.nodup_cons.mp hnd).2 (by
          intro y hy
          rw [← h6, upd_ne]
          · exact hal y (by simp [hy])
          · intro he; subst he; exact (List.nodup_cons.mp hnd).1 hy)
      rw [List.map_cons, run, hrun]
      simp only [ih, List.length_cons, List.replicate_succ]
    · cases he

/-- C29, partial: as long as none of the two dangerous operations has thrown, after any failures
whatsoever every operation within the rules is free of undefined behaviour, and all arrays can be
destroyed. Missing: copy assignment between different sizes and `reallocate`, see
`C29_alloc_refuted`. -/
theorem C29_destructible_partial {sz : Nat} (hsz : 0 < sz) {dflt : V} {faults : List Bool} {s : St V}
    (h : Reach sz dflt faults s) :
    (∀ o sp', Means sz dflt (contents s) o sp' →
      (op sz dflt o s).1 = .ok () ∨ ∃ e, (op sz dflt o s).1 = .exn e) ∧
    (∀ xs : List Nat, xs.Nodup → (∀ x ∈ xs, contents s x ≠ none) →
      (run sz dflt (xs.map Op.destroy) s).1 = List.replicate xs.length (.ok ())) := by
  have hsim := h.sim hsz
  refine ⟨?_, fun xs h1 h2 => destroy_all hsz dflt xs hsim h1 h2⟩
  intro o sp' hm
  obtain ⟨_, _, _, h4⟩ := op_spec hsz hm hsim
  rcases h4 with ⟨h5, _⟩ | ⟨e, h5, _⟩
  · exact .inl h5
  · exact .inr ⟨e, h5⟩

/-- C29, partial: the constructors, `resize` and element writes change no array when they throw; a
`fill` or `assign` that throws changes only the array it is called on, which keeps being an array. -/
theorem C29_strong_partial {sz : Nat} (hsz : 0 < sz) {dflt : V} {faults : List Bool} {s s' : St V}
    (h : Reach sz dflt faults s) {o : Op V} {sp' : Spec V} (hm : Means sz dflt (contents s) o sp') {e : Exn}
    (he : op sz dflt o s = (.exn e, s')) (hd : ¬ Danger (contents s) o) :
    (∀ y, y ≠ o.target → contents s' y = contents s y) ∧
    (contents s' o.target = none ↔ contents s o.target = none) ∧
    (Strong o → ∀ y, contents s' y = contents s y) := by
  obtain ⟨_, _, _, h4⟩ := op_spec hsz hm (h.sim hsz)
  rw [he] at h4
  rcases h4 with ⟨h5, _⟩ | ⟨e', _, _, h5⟩
  · cases h5
  · rcases h5 with h5 | ⟨sp'', h5, h6, h7, h8⟩
    · exact absurd h5 hd
    · have h5 : Sim sz s' sp'' := h5
      rw [h5.eq_contents] at h6 h7 h8
      exact ⟨h6, h7, fun hs y => by rw [h8 hs]⟩

theorem destroyLoop_bad {p : Option Nat} {s : St V} {k : UB} (hp : ∀ i, cell p i s = .ub k) :
    ∀ n, 0 < n → destroyLoop p n s = (.ub k, s) := by
  intro n hn
  obtain ⟨m, rfl⟩ : ∃ m, n = m + 1 := ⟨n - 1, by omega⟩
  have : destroyCell p m s = (.ub k, s) := by unfold destroyCell; rw [hp m]
  simp [destroyLoop, M.bind, this]

/-- The object left behind by a failed allocation in a dangerous operation cannot be destroyed. -/
theorem destroy_bad {sz : Nat} {dflt : V} {s : St V} {x n : Nat} {p : Option Nat}
    (hv : s.vars x = some ⟨n, p⟩) (hb : ∀ b, p = some b → s.blocks b = none) (hn : p = none → 0 < n) :
    (op sz dflt (.destroy x) s).1.isUB = true := by
  rw [op, bind_ok (getObj_eq hv)]
  match p, hb, hn with
  | none, _, hn =>
    have := destroyLoop_bad (p := none) (s := s) (k := .nullDeref) (fun _ => rfl) n (hn rfl)
    simp only [M.bind, this]; rfl
  | some b, hb, _ =>
    have hbn := hb b rfl
    by_cases h0 : n = 0
    · subst h0
      simp only [destroyLoop, M.bind, M.pure, free, hbn]; rfl
    · have := destroyLoop_bad (p := some b) (s := s) (k := .dangling)
        (fun i => by simp [cell, hbn]) n (by omega)
      simp only [M.bind, this]; rfl

/-- C29 is false: whenever the allocation in a copy assignment between different sizes, or in
`reallocate` to a different size, fails, the assigned array can no longer be destroyed without
undefined behaviour. -/
theorem C29_alloc_refuted {sz : Nat} {dflt : V} {s : St V} (h : Sim sz s (contents s)) {t : List Bool}
    (hf : s.faults = true :: t) {x : Nat} {k : List V} (hx : contents s x = some k) :
    (∀ y l, contents s y = some l → k.length ≠ l.length →
      ∃ s', op sz dflt (.assignCopy x y) s = (.exn .badAlloc, s') ∧
        (op sz dflt (.destroy x) s').1.isUB = true) ∧
    (∀ n, k.length ≠ n →
      ∃ s', op sz dflt (.reallocate x n) s = (.exn .badAlloc, s') ∧
        (op sz dflt (.destroy x) s').1.isUB = true) := by
  obtain ⟨ox, hox, hwx⟩ := h.alive x k hx
  obtain ⟨s1, s2, h1, h2, hb2, hv2, hn2, hl2, hf2⟩ := release_obj hwx
  have key : ∀ n (f : Nat → M V Unit), k.length ≠ n →
      ∃ s', (destroyLoop ox.ptr ox.size >>> fun _ => free ox.ptr >>> fun _ =>
        setObj x ⟨n, ox.ptr⟩ >>> fun _ => alloc sz n >>> f) s = (.exn .badAlloc, s') ∧
        (op sz dflt (.destroy x) s').1.isUB = true := by
    intro n f hkn
    rw [bind_ok h1, bind_ok h2]
    refine ⟨{ s2 with vars := upd s2.vars x (some ⟨n, ox.ptr⟩), faults := t }, ?_, ?_⟩
    · have hf3 : s2.faults = true :: t := by rw [hf2]; exact hf
      simp [M.bind, setObj, alloc, tick, hf3]
    · refine destroy_bad (n := n) (p := ox.ptr) (upd_same _ _ _) ?_ ?_
      · intro b hp
        show s2.blocks b = none
        rw [hb2, if_pos hp]
      · intro hp
        have : k = [] := hwx.2.1 hp
        subst this
        simp at hkn; omega
  constructor
  · intro y l hy hkl
    obtain ⟨oy, hoy, hwy⟩ := h.alive y l hy
    rw [op, bind_ok (getObj_eq hox), bind_ok (getObj_eq hoy), if_neg (by rw [hwx.1, hwy.1]; exact hkl), hwy.1]
    exact key l.length _ hkl
  · intro n hkn
    rw [op, bind_ok (getObj_eq hox), if_pos (by rw [hwx.1]; exact hkn)]
    exact key n _ hkn

/-- C29 is false, on concrete runs: the second allocation fails in a copy assignment; an element
constructor fails in a copy assignment and in `reallocate`. -/
theorem C29_refuted :
    (run 8 (0 : Nat) [.ctorSize 0 1, .ctorDefault 1, .assignCopy 1 0, .destroy 1]
      (St.init [false, false, true])).1 = [.ok (), .ok (), .exn .badAlloc, .ub .nullDeref] ∧
    (run 8 (0 : Nat) [.ctorSize 0 1, .ctorSize 1 2, .assignCopy 1 0, .destroy 1]
      (St.init [false, false, false, false, false, true])).1 = [.ok (), .ok (), .exn .badAlloc, .ub .dangling] ∧
    (run 8 (0 : Nat) [.ctorSize 0 1, .ctorSize 1 2, .assignCopy 1 0, .destroy 1]
      (St.init [false, false, false, false, false, false, true])).1 =
        [.ok (), .ok (), .exn (.user 0), .ub .notAlive] ∧
    (run 8 (0 : Nat) [.ctorSize 0 1, .reallocate 0 2, .destroy 0]
      (St.init [false, false, false, true])).1 = [.ok (), .exn (.user 0), .ub .notAlive] := by
  decide +kernel

/-- The states of the partial theorem include some after exceptions: a failed `resize`. -/
example : (run 8 (0 : Nat) [.ctorSize 0 2, .resize 0 3, .fill 0 (.ext 5), .destroy 0]
      (St.init [false, false, false, false, false, true, false, true])).1 =
    [.ok (), .exn (.user 0), .exn (.user 1), .ok ()] := by decide +kernel

/-! ## C30 -/

/-- The construction loop leaves a block that is too small. -/
theorem constructLoop_overrun {b : Nat} (src : Nat → M V V)
    (hsrc : ∀ i s, ∃ v, src i s = (.ok v, s)) : ∀ (m n : Nat) (done : List (Option V)) (s : St V), m < n →
      s.faults = [] → s.blocks b = some (done ++ List.replicate m none) →
      (constructLoop (some b) src n done.length s).1 = .ub .outOfBounds := by
  intro m
  induction m with
  | zero =>
    intro n done s hn hf hb
    obtain ⟨n, rfl⟩ : ∃ k, n = k + 1 := ⟨n - 1, by omega⟩
    obtain ⟨v, hv⟩ := hsrc done.length s
    rw [constructLoop, bind_ok hv]
    have : construct (some b) done.length v s = (.ub .outOfBounds, s) := by
      simp [construct, cell, hb]
    simp [M.bind, this]
  | succ m ih =>
    intro n done s hn hf hb
    obtain ⟨n, rfl⟩ : ∃ k, n = k + 1 := ⟨n - 1, by omega⟩
    obtain ⟨v, hv⟩ := hsrc done.length s
    rw [constructLoop, bind_ok hv]
    have hc : (done ++ List.replicate (m + 1) none)[done.length]? = some none := by
      simp [List.replicate_succ]
    rcases construct_cases hb hc v with ⟨s1, h1, hs1, hb1⟩ | ⟨e, s1, _, _, hf', _⟩
    · rw [bind_ok h1]
      have hb1' : s1.blocks b = some ((done ++ [some v]) ++ List.replicate m none) := by
        rw [hb1]; simp [List.replicate_succ]
      have := ih n (done ++ [some v]) s1 (by omega) (hs1.faults hf) hb1'
      simpa using this
    · exact absurd hf hf'

/-- C30 is false for every size that does not fit: when the allocator satisfies the (wrapped)
request, the constructors `Array(n)`, `Array(n,x)`, the generator constructor and `resize` of an
empty array write outside the block, in every state. -/
theorem C30_refuted {sz n : Nat} (hsz : 0 < sz) (hn : 2 ^ 64 ≤ n * sz) (dflt : V) {s : St V}
    (hf : s.faults = []) (x : Nat) :
    (op sz dflt (.ctorSize x n) s).1 = .ub .outOfBounds ∧
    (∀ v, (op sz dflt (.ctorFill x n (.ext v)) s).1 = .ub .outOfBounds) ∧
    (∀ g, (op sz dflt (.ctorGen x n g) s).1 = .ub .outOfBounds) ∧
    (s.vars x = some ⟨0, none⟩ → (op sz dflt (.resize x n) s).1 = .ub .outOfBounds) := by
  have hlt : n * sz % 2 ^ 64 / sz < n := by
    rw [Nat.div_lt_iff_lt_mul hsz]
    exact Nat.lt_of_lt_of_le (Nat.mod_lt _ (by decide)) hn
  have halloc : (alloc sz n s : Res Nat × St V) = (.ok s.next, { s with
      blocks := upd s.blocks s.next (some (List.replicate (n * sz % 2 ^ 64 / sz) none))
      next := s.next + 1 }) := by
    simp [alloc, M.bind, tick, hf]
  have loop : ∀ src : Nat → M V V, (∀ i s, ∃ v, src i s = (.ok v, s)) →
      (constructLoop (some s.next) src n 0 { s with
        blocks := upd s.blocks s.next (some (List.replicate (n * sz % 2 ^ 64 / sz) none))
        next := s.next + 1 }).1 = .ub .outOfBounds := by
    intro src hsrc
    exact constructLoop_overrun src hsrc _ n [] _ hlt hf (by simp [upd])
  have ubind : ∀ {m : M V Unit} {f : Unit → M V Unit} {s' : St V}, (m s').1 = .ub .outOfBounds →
      ((m >>> f) s').1 = .ub .outOfBounds := by
    intro m f s' h
    unfold M.bind
    match hm : m s' with
    | (.ok a, s'') => rw [hm] at h; cases h
    | (.exn e, s'') => rw [hm] at h; cases h
    | (.ub k, s'') => rw [hm] at h; exact h
    | (.abort, s'') => rw [hm] at h; cases h
  have hbuild : ∀ src : Nat → M V V, (∀ i s, ∃ v, src i s = (.ok v, s)) →
      (build sz n src x s).1 = .ub .outOfBounds := by
    intro src hsrc
    rw [build, bind_ok halloc]
    exact ubind (loop src hsrc)
  refine ⟨hbuild _ fun _ _ => ⟨_, rfl⟩, fun v => ?_, fun g => hbuild _ fun i _ => ⟨g i, rfl⟩, fun hv => ?_⟩
  · have : (bindArg (.ext v) : M V _) s = (.ok (.inl v), s) := rfl
    rw [op, bind_ok this]
    exact hbuild _ fun _ _ => ⟨v, rfl⟩
  · have hn0 : n ≠ 0 := by intro h; subst h; simp at hn
    rw [op, resizeWith, bind_ok (getObj_eq hv), if_pos (fun h => hn0 h.symm), bind_ok halloc]
    exact ubind (loop _ fun i s => ⟨dflt, by simp [M.pure]⟩)

/-- The theorem applies: 2^61 doubles. -/
example (s : St Nat) (hf : s.faults = []) : (op 8 0 (.ctorSize 0 (2 ^ 61)) s).1 = .ub .outOfBounds :=
  (C30_refuted (by decide) (by decide) 0 hf 0).1

/-- C30, partial: when the byte size fits, construction either completes or throws, in the latter
case leaving all arrays as they were. Missing: sizes that do not fit. -/
theorem C30_fits_partial {sz n : Nat} (hsz : 0 < sz) (hn : n * sz < 2 ^ 64) (dflt : V) {faults : List Bool}
    {s : St V} (h : Reach sz dflt faults s) {x : Nat} (hx : contents s x = none) :
    ∃ r s', op sz dflt (.ctorSize x n) s = (r, s') ∧
      ((r = .ok () ∧ contents s' x = some (List.replicate n dflt)) ∨
       (∃ e, r = .exn e ∧ ∀ y, contents s' y = contents s y)) := by
  have hm : Means sz dflt (contents s) (.ctorSize x n) _ := .ctorSize hx hn
  match hr : op sz dflt (.ctorSize x n) s with
  | (r, s') =>
    refine ⟨r, s', rfl, ?_⟩
    obtain ⟨_, _, _, h4⟩ := op_spec hsz hm (h.sim hsz)
    rw [hr] at h4
    rcases h4 with ⟨h5, h6, _⟩ | ⟨e, h5, _, _⟩
    · left
      have h6 : Sim sz s' _ := h6
      exact ⟨h5, by rw [h6.contents, upd_same]⟩
    · right
      have h5 : r = .exn e := h5
      subst h5
      exact ⟨e, rfl, (C29_strong_partial hsz h hm hr (fun h => h)).2.2 trivial⟩

/-! ## C31 -/

/-- C31: `a.fill(t)` sets every element to the value `t` had before the call, also when `t` is an
element of `a`; the other arrays are unchanged. -/
theorem C31_fill {sz : Nat} (hsz : 0 < sz) {dflt : V} {s : St V} (h : Valid sz s) {x : Nat} {l : List V}
    (hx : contents s x = some l) {a : Arg V} {v : V} (ha : argVal (contents s) a = some v) :
    ∃ s', op sz dflt (.fill x a) s = (.ok (), s') ∧ Valid sz s' ∧
      contents s' x = some (List.replicate l.length v) ∧ ∀ z, z ≠ x → contents s' z = contents s z := by
  obtain ⟨s', h1, h2, h3⟩ := valid_op hsz (dflt := dflt) (.fill hx ha) h
  exact ⟨s', h1, h2, by rw [h3, upd_same], fun z hz => by rw [h3, upd_ne _ _ hz]⟩

/-- C31: `a.fill(first)` copies `size()` elements from the range. -/
theorem C31_fillFrom {sz : Nat} (hsz : 0 < sz) {dflt : V} {s : St V} (h : Valid sz s) {x : Nat} {l vs : List V}
    (hx : contents s x = some l) {r : Src V} (hr : srcVal (contents s) r = some vs) (hl : vs.length = l.length) :
    ∃ s', op sz dflt (.fillFrom x r) s = (.ok (), s') ∧ Valid sz s' ∧
      contents s' x = some vs ∧ ∀ z, z ≠ x → contents s' z = contents s z := by
  obtain ⟨s', h1, h2, h3⟩ := valid_op hsz (dflt := dflt) (.fillFrom hx hr hl) h
  exact ⟨s', h1, h2, by rw [h3, upd_same], fun z hz => by rw [h3, upd_ne _ _ hz]⟩

/-- C31, partial: `a.assign(first,last)` makes `a` equal to the range when the range is outside `a`,
is the whole of `a`, or is empty. Missing: proper sub-ranges of `a` itself, for which it is false. -/
theorem C31_assign_partial {sz : Nat} (hsz : 0 < sz) {dflt : V} {s : St V} (h : Valid sz s) {x : Nat}
    {l vs : List V} (hx : contents s x = some l) {r : Src V} (hr : srcVal (contents s) r = some vs)
    (hf : vs.length * sz < 2 ^ 64) (hself : ∀ i j, r = .range x i j → vs.length = l.length ∨ vs = []) :
    ∃ s', op sz dflt (.assign x r) s = (.ok (), s') ∧ Valid sz s' ∧
      contents s' x = some vs ∧ ∀ z, z ≠ x → contents s' z = contents s z := by
  obtain ⟨s', h1, h2, h3⟩ := valid_op hsz (dflt := dflt) (.assign hx hf hr hself) h
  exact ⟨s', h1, h2, by rw [h3, upd_same], fun z hz => by rw [h3, upd_ne _ _ hz]⟩

/-- After a completed `resize` to another size the old block is freed. -/
theorem resize_frees {sz : Nat} (hsz : 0 < sz) {dflt : V} {s s1 : St V} (h : Sim sz s (contents s)) {x n b : Nat}
    {l : List V} {o : Obj} (hx : contents s x = some l) (ho : s.vars x = some o) (hp : o.ptr = some b)
    (hfit : Fits sz n) (hne : l.length ≠ n) (hr : resizeWith sz (M.pure dflt) x n s = (.ok (), s1)) :
    s1.blocks b = none := by
  have hrs := resizeWith_spec hsz h hx hfit (M.pure dflt) dflt (fun _ _ => rfl)
  rw [hr] at hrs
  obtain ⟨_, _, _, h4⟩ := hrs
  have hlt := h.lt ho hp
  rcases h4 with ⟨_, h6, h7⟩ | ⟨e, h5, _⟩
  · apply Classical.byContradiction
    intro hb
    have hnew : ∃ p, ptrOf s1 x = some p ∧ s.next ≤ p := by
      obtain ⟨o', ho', hw'⟩ := h.alive x l hx
      rw [ho] at ho'; cases ho'
      rw [resizeWith, bind_ok (getObj_eq ho), if_pos (by rw [hw'.1]; exact hne)] at hr
      rcases alloc_cases hsz hfit s with ⟨s2, h2, _⟩ | ⟨e, s2, h2, _⟩
      · rw [bind_ok h2] at hr
        refine ⟨s.next, ?_, Nat.le_refl _⟩
        have hk : ∀ {m : M V Unit} {t t' : St V}, (m >>> fun _ => setObj x ⟨n, some s.next⟩) t = (.ok (), t') →
            ptrOf t' x = some s.next := by
          intro m t t' ht
          unfold M.bind at ht
          match hm : m t with
          | (.ok a, t1) =>
            rw [hm] at ht
            have : t' = { t1 with vars := upd t1.vars x (some ⟨n, some s.next⟩) } :=
              (congrArg Prod.snd ht).symm
            rw [this]; simp [ptrOf, upd]
          | (.exn e, t1) => rw [hm] at ht; cases ht
          | (.ub e, t1) => rw [hm] at ht; cases ht
          | (.abort, t1) => rw [hm] at ht; cases ht
        have hassoc : ∀ {a c : M V Unit} {f : Unit → M V Unit} {t t' : St V},
            (a >>> fun _ => (c >>> f)) t = (.ok (), t') → ∃ t1, (c >>> f) t1 = (.ok (), t') := by
          intro a c f t t' ht
          unfold M.bind at ht
          match hm : a t with
          | (.ok u, t1) => rw [hm] at ht; exact ⟨t1, ht⟩
          | (.exn e, t1) => rw [hm] at ht; cases ht
          | (.ub e, t1) => rw [hm] at ht; cases ht
          | (.abort, t1) => rw [hm] at ht; cases ht
        obtain ⟨t1, ht1⟩ := hassoc hr
        obtain ⟨t2, ht2⟩ := hassoc ht1
        exact hk ht2
      · rw [bind_exn h2] at hr; cases hr
    obtain ⟨p, hp1, hp2⟩ := hnew
    have hleak : Leaked s1 b := by
      refine ⟨hb, ?_⟩
      rintro ⟨z, oz, hz, hpz⟩
      by_cases hzx : z = x
      · subst hzx
        rw [ptrOf_eq hz, hpz] at hp1; cases hp1; omega
      · have hv := resizeWith_vars sz dflt x z n hzx s
        rw [hr] at hv
        have hv : s1.vars z = s.vars z := hv
        rw [hv] at hz
        exact hzx (h.distinct z x oz o b hz ho hpz hp)
    rcases h7 b hleak with h8 | h8
    · exact h8.2 ⟨x, o, ho, hp⟩
    · exact h8
  · cases h5

/-- C31 is false for every non-empty proper sub-range of the array itself: `assign` resizes first and
then reads through the iterators into the freed block. -/
theorem C31_assign_refuted {sz : Nat} (hsz : 0 < sz) {dflt : V} {s : St V} (h : Valid sz s) {x : Nat}
    {l : List V} (hx : contents s x = some l) {i j : Nat} (hij : i < j) (hj : j ≤ l.length)
    (hne : j - i ≠ l.length) :
    (op sz dflt (.assign x (.range x i j)) s).1 = .ub .dangling := by
  obtain ⟨o, ho, hw⟩ := h.1.alive x l hx
  obtain ⟨b, hp⟩ : ∃ b, o.ptr = some b := by
    match hp : o.ptr with
    | none => have := hw.2.1 hp; subst this; simp at hj; omega
    | some b => exact ⟨b, rfl⟩
  have hfit : Fits sz l.length := h.1.fits x l hx
  have hfit' : Fits sz (j - i) := Nat.lt_of_le_of_lt (Nat.mul_le_mul_right sz (by omega)) hfit
  have hlt : l.length < 2 ^ 64 := lt64 hsz hfit
  have hdist : ((Src.range x i j : Src V).dist % 2 ^ 64).toNat = j - i := by
    simp only [Src.dist]; omega
  have hbind : bindSrc (Src.range x i j) s = (.ok (.inr (o.ptr, i)), s) := by
    rw [bindSrc, bind_ok (getObj_eq ho)]; rfl
  rw [op, bind_ok hbind, hdist]
  have hrs := resizeWith_spec hsz h.1 hx hfit' (M.pure dflt) dflt (fun _ _ => rfl)
  match hr : resizeWith sz (M.pure dflt) x (j - i) s with
  | (r, s1) =>
    rw [hr] at hrs
    obtain ⟨_, _, _, h4⟩ := hrs
    rcases h4 with ⟨h5, h6, h7⟩ | ⟨e, _, h5, _⟩
    · have h5 : r = .ok () := h5
      subst h5
      rw [bind_ok hr]
      have h6 : Sim sz s1 _ := h6
      obtain ⟨o1, ho1, hw1⟩ := h6.alive x _ (upd_same _ _ _)
      rw [fillWith, bind_ok (getObj_eq ho1), hw1.1]
      have hlen : (l.take (j - i) ++ List.replicate (j - i - l.length) dflt).length = j - i := by simp; omega
      rw [hlen]
      obtain ⟨m, hm⟩ : ∃ m, j - i = m + 1 := ⟨j - i - 1, by omega⟩
      rw [hm, assignLoop]
      -- the old block is gone
      have hgone : s1.blocks b = none :=
        resize_frees hsz h.1 hx ho hp hfit' (fun h => hne h.symm) hr
      have : readSrc (.inr (o.ptr, i)) 0 s1 = (.ub .dangling, s1) := by
        simp [readSrc, readCell, M.look, cell, hp, hgone]
      simp only [M.bind, this]
    · exact absurd h.2 h5

example : let s := (run 8 0 [.ctorRange 0 (.ext [1, 2, 3])] (St.init [])).2
    contents (op 8 0 (.fill 0 (.elem 0 1)) s).2 0 = some [2, 2, 2] ∧
    (op 8 0 (.assign 0 (.range 0 1 3)) s).1 = .ub .dangling ∧
    contents (op 8 0 (.assign 0 (.range 0 0 3)) s).2 0 = some [1, 2, 3] ∧
    contents (op 8 0 (.assign 0 (.range 0 1 1)) s).2 0 = some [] := by decide +kernel

/-! ## C70 -/

/-- C70: constructing an array from iterators in the wrong order never yields an array: it aborts (or
throws while allocating). -/
theorem C70_reversed {sz : Nat} (dflt : V) {s : St V} {x y i j : Nat} {o : Obj}
    (hy : s.vars y = some o) (hij : j < i) :
    (op sz dflt (.ctorRange x (.range y i j)) s).1 = .abort ∨
    (op sz dflt (.ctorRange x (.range y i j)) s).1 = .exn .badAlloc := by
  have hbind : bindSrc (Src.range y i j) s = (.ok (.inr (o.ptr, i)), s) := by
    rw [bindSrc, bind_ok (getObj_eq hy)]; rfl
  rw [op, bind_ok hbind, if_pos (by simp only [Src.dist]; omega)]
  unfold alloc
  rcases tick_cases .badAlloc s with ⟨f, hf, _⟩ | ⟨f, hf, _⟩
  · left; simp only [M.bind, hf]
  · right; simp only [M.bind, hf]

example : (run 8 0 [.ctorRange 0 (.ext [1, 2, 3]), .ctorRange 1 (.range 0 2 1)] (St.init [])).1 =
    [.ok (), .abort] := by decide +kernel

end Helper.Arr
