import Verif.Arr.Step
set_option linter.unusedSectionVars false
/-!
# Every operation on arrays
-/
namespace Helper.Arr

variable {V : Type}

/-- The array variable an operation is called on. -/
def Op.target : Op V → Nat
  | .ctorDefault x => x
  | .ctorSize x _ => x
  | .ctorFill x _ _ => x
  | .ctorRange x _ => x
  | .ctorGen x _ _ => x
  | .ctorCopy x _ => x
  | .ctorMove x _ => x
  | .assignCopy x _ => x
  | .assignMove x _ => x
  | .resize x _ => x
  | .resizeVal x _ _ => x
  | .reallocate x _ => x
  | .swap x _ => x
  | .write x _ _ => x
  | .fill x _ => x
  | .fillFrom x _ => x
  | .assign x _ => x
  | .destroy x => x

/-- The operations that release the storage before they have a new one: copy assignment between
arrays of different sizes and `reallocate` to a different size. -/
def Danger (sp : Spec V) : Op V → Prop
  | .assignCopy x y => ∃ k l, sp x = some k ∧ sp y = some l ∧ k.length ≠ l.length
  | .reallocate x n => ∃ k, sp x = some k ∧ k.length ≠ n
  | _ => False

/-- Operations that change nothing when they throw. -/
def Strong : Op V → Prop
  | .assignCopy _ _ => False
  | .reallocate _ _ => False
  | .fill _ _ => False
  | .fillFrom _ _ => False
  | .assign _ _ => False
  | _ => True

/-- Blocks that the operation forgets: those of the target of a move assignment. -/
def Drops (s : St V) : Op V → Nat → Prop
  | .assignMove x y, b => x ≠ y ∧ ptrOf s x = some b
  | _, _ => False

theorem upd_self {α : Type v} {f : Nat → α} {x : Nat} {a : α} (h : f x = a) : upd f x a = f := by
  funext y
  by_cases hy : y = x
  · subst hy; rw [upd_same, h]
  · rw [upd_ne _ _ hy]

/-- `x` takes over the storage of `y`. -/
theorem move_spec {sz : Nat} {s : St V} {sp : Spec V} (h : Sim sz s sp) {x y : Nat} (hxy : x ≠ y)
    {l : List V} (hy : sp y = some l) {o : Obj} (ho : s.vars y = some o) (strong danger : Prop) :
    Outcome sz sp (upd (upd sp x (some l)) y (some [])) s x strong danger (fun b => ptrOf s x = some b)
      ((setObj x o >>> fun _ => setObj y ⟨0, none⟩) s) := by
  obtain ⟨o', ho', hw⟩ := h.alive y l hy
  rw [ho] at ho'; cases ho'
  have hrun : (setObj x o >>> fun _ => setObj y ⟨0, none⟩) s =
    (.ok (), { s with vars := upd (upd s.vars x (some o)) y (some ⟨0, none⟩) }) := rfl
  rw [hrun]
  have hv : ∀ z, upd (upd s.vars x (some o)) y (some ⟨0, none⟩) z =
      if z = y then some ⟨0, none⟩ else if z = x then some o else s.vars z := by
    intro z; simp [upd]
  have hs : ∀ z, upd (upd sp x (some l)) y (some []) z =
      if z = y then some [] else if z = x then some l else sp z := by
    intro z; simp [upd]
  refine ⟨rfl, id, ?_, .inl ⟨rfl, ⟨h.fresh, ?_, ?_, ?_, ?_⟩, ?_⟩⟩
  · intro b hb
    refine ⟨rfl, ?_⟩
    rintro ⟨z, oz, hz, hp⟩
    simp only [hv] at hz
    by_cases hzy : z = y
    · rw [if_pos hzy] at hz; cases hz; cases hp
    · rw [if_neg hzy] at hz
      by_cases hzx : z = x
      · rw [if_pos hzx] at hz; cases hz; exact hb.2 ⟨y, _, ho, hp⟩
      · rw [if_neg hzx] at hz; exact hb.2 ⟨z, oz, hz, hp⟩
  · intro z hz
    simp only [hs] at hz
    simp only [hv]
    by_cases hzy : z = y
    · simp [hzy] at hz
    · by_cases hzx : z = x
      · simp [hzx, hxy] at hz
      · rw [if_neg hzy, if_neg hzx] at hz ⊢; exact h.dead z hz
  · intro z k hz
    simp only [hs] at hz
    simp only [hv]
    by_cases hzy : z = y
    · rw [if_pos hzy] at hz ⊢; cases hz
      exact ⟨_, rfl, rfl, fun _ => rfl, fun b hb => by cases hb⟩
    · by_cases hzx : z = x
      · rw [if_neg hzy, if_pos hzx] at hz ⊢; cases hz; exact ⟨_, rfl, hw⟩
      · rw [if_neg hzy, if_neg hzx] at hz ⊢; exact h.alive z k hz
  · intro z k hz
    simp only [hs] at hz
    by_cases hzy : z = y
    · rw [if_pos hzy] at hz; cases hz; simp [Fits]
    · by_cases hzx : z = x
      · rw [if_neg hzy, if_pos hzx] at hz; cases hz; exact h.fits y l hy
      · rw [if_neg hzy, if_neg hzx] at hz; exact h.fits z k hz
  · have key : ∀ z oz b, upd (upd s.vars x (some o)) y (some ⟨0, none⟩) z = some oz → oz.ptr = some b →
        ∃ z', s.vars z' = some oz ∧ ((z = x ∧ z' = y) ∨ (z ≠ x ∧ z ≠ y ∧ z' = z)) := by
      intro z oz b hz hp
      rw [hv] at hz
      by_cases hzy : z = y
      · rw [if_pos hzy] at hz; cases hz; cases hp
      · by_cases hzx : z = x
        · rw [if_neg hzy, if_pos hzx] at hz; cases hz; exact ⟨y, ho, .inl ⟨hzx, rfl⟩⟩
        · rw [if_neg hzy, if_neg hzx] at hz; exact ⟨z, hz, .inr ⟨hzx, hzy, rfl⟩⟩
    intro z w oz ow b hz hw' hpz hpw
    obtain ⟨z', hz', hc⟩ := key z oz b hz hpz
    obtain ⟨w', hw'', hd⟩ := key w ow b hw' hpw
    have := h.distinct z' w' oz ow b hz' hw'' hpz hpw
    omega
  · intro b hb
    by_cases hpx : ptrOf s x = some b
    · exact .inr hpx
    · left
      refine ⟨hb.1, ?_⟩
      rintro ⟨z, oz, hz, hp⟩
      by_cases hzy : z = y
      · rw [hzy, ho] at hz; cases hz
        exact hb.2 ⟨x, o, by simp only [hv]; simp [hxy], hp⟩
      · by_cases hzx : z = x
        · rw [hzx] at hz; exact hpx (by rw [ptrOf_eq hz]; exact hp)
        · exact hb.2 ⟨z, oz, by simp only [hv]; rw [if_neg hzy, if_neg hzx]; exact hz, hp⟩

/-- `swap`. -/
theorem swap_spec {sz : Nat} {s : St V} {sp : Spec V} (h : Sim sz s sp) {x y : Nat}
    {k l : List V} (hx : sp x = some k) (hy : sp y = some l) {ox oy : Obj} (hox : s.vars x = some ox)
    (hoy : s.vars y = some oy) (strong danger : Prop) (drops : Nat → Prop) :
    Outcome sz sp (upd (upd sp x (some l)) y (some k)) s x strong danger drops
      ((setObj x oy >>> fun _ => setObj y ox) s) := by
  obtain ⟨o', ho', hwx⟩ := h.alive x k hx
  rw [hox] at ho'; cases ho'
  obtain ⟨o', ho', hwy⟩ := h.alive y l hy
  rw [hoy] at ho'; cases ho'
  have hrun : (setObj x oy >>> fun _ => setObj y ox) s =
    (.ok (), { s with vars := upd (upd s.vars x (some oy)) y (some ox) }) := rfl
  rw [hrun]
  have hv : ∀ z, upd (upd s.vars x (some oy)) y (some ox) z =
      if z = y then some ox else if z = x then some oy else s.vars z := by
    intro z; simp [upd]
  have hs : ∀ z, upd (upd sp x (some l)) y (some k) z =
      if z = y then some k else if z = x then some l else sp z := by
    intro z; simp [upd]
  have key : ∀ z oz, upd (upd s.vars x (some oy)) y (some ox) z = some oz →
      ∃ z', s.vars z' = some oz ∧
        ((z = y ∧ z' = x) ∨ (z ≠ y ∧ z = x ∧ z' = y) ∨ (z ≠ x ∧ z ≠ y ∧ z' = z)) := by
    intro z oz hz
    rw [hv] at hz
    by_cases hzy : z = y
    · rw [if_pos hzy] at hz; cases hz; exact ⟨x, hox, .inl ⟨hzy, rfl⟩⟩
    · by_cases hzx : z = x
      · rw [if_neg hzy, if_pos hzx] at hz; cases hz; exact ⟨y, hoy, .inr (.inl ⟨hzy, hzx, rfl⟩)⟩
      · rw [if_neg hzy, if_neg hzx] at hz; exact ⟨z, hz, .inr (.inr ⟨hzx, hzy, rfl⟩)⟩
  refine ⟨rfl, id, ?_, .inl ⟨rfl, ⟨h.fresh, ?_, ?_, ?_, ?_⟩, ?_⟩⟩
  · intro b hb
    refine ⟨rfl, ?_⟩
    rintro ⟨z, oz, hz, hp⟩
    obtain ⟨z', hz', _⟩ := key z oz hz
    exact hb.2 ⟨z', oz, hz', hp⟩
  · intro z hz
    simp only [hs] at hz
    simp only [hv]
    by_cases hzy : z = y
    · simp [hzy] at hz
    · by_cases hzx : z = x
      · rw [if_neg hzy, if_pos hzx] at hz; cases hz
      · rw [if_neg hzy, if_neg hzx] at hz ⊢; exact h.dead z hz
  · intro z m hz
    simp only [hs] at hz
    simp only [hv]
    by_cases hzy : z = y
    · rw [if_pos hzy] at hz ⊢; cases hz; exact ⟨_, rfl, hwx⟩
    · by_cases hzx : z = x
      · rw [if_neg hzy, if_pos hzx] at hz ⊢; cases hz; exact ⟨_, rfl, hwy⟩
      · rw [if_neg hzy, if_neg hzx] at hz ⊢; exact h.alive z m hz
  · intro z m hz
    simp only [hs] at hz
    by_cases hzy : z = y
    · rw [if_pos hzy] at hz; cases hz; exact h.fits x k hx
    · by_cases hzx : z = x
      · rw [if_neg hzy, if_pos hzx] at hz; cases hz; exact h.fits y l hy
      · rw [if_neg hzy, if_neg hzx] at hz; exact h.fits z m hz
  · intro z w oz ow b hz hw hpz hpw
    obtain ⟨z', hz', hc⟩ := key z oz hz
    obtain ⟨w', hw', hd⟩ := key w ow hw
    have := h.distinct z' w' oz ow b hz' hw' hpz hpw
    omega
  · intro b hb
    left
    refine ⟨hb.1, ?_⟩
    rintro ⟨z, oz, hz, hp⟩
    by_cases hzy : z = y
    · rw [hzy, hoy] at hz; cases hz
      by_cases hxy : x = y
      · refine hb.2 ⟨y, ox, by simp only [hv]; simp, ?_⟩
        rw [hxy, hoy] at hox; cases hox; exact hp
      · exact hb.2 ⟨x, oy, by simp only [hv]; simp [hxy], hp⟩
    · by_cases hzx : z = x
      · rw [hzx, hox] at hz; cases hz
        exact hb.2 ⟨y, ox, by simp only [hv]; simp, hp⟩
      · exact hb.2 ⟨z, oz, by simp only [hv]; rw [if_neg hzy, if_neg hzx]; exact hz, hp⟩

/-- An operation and a second one on the same variable. -/
theorem Outcome.andThen {sz : Nat} {sp sp1 sp2 : Spec V} {s : St V} {x : Nat} {m : M V Unit}
    {f : Unit → M V Unit}
    (h1 : Outcome sz sp sp1 s x True False (fun _ => False) (m s))
    (hsp : ∀ y, y ≠ x → sp1 y = sp y) (hx : sp1 x = none ↔ sp x = none)
    (h2 : ∀ s1, m s = (.ok (), s1) → Sim sz s1 sp1 → s1.lost = s.lost →
      Outcome sz sp1 sp2 s1 x False False (fun _ => False) (f () s1)) :
    Outcome sz sp sp2 s x False False (fun _ => False) ((m >>> f) s) := by
  match hm : m s with
  | (r, s1) =>
    rw [hm] at h1
    obtain ⟨a1, a2, a3, a4⟩ := h1
    rcases a4 with ⟨b1, b2, b3⟩ | ⟨e, b1, b2, b3⟩
    · cases b1
      rw [bind_ok hm]
      obtain ⟨c1, c2, c3, c4⟩ := h2 s1 hm b2 a1
      refine ⟨c1.trans a1, fun h => c2 (a2 h), ?_, ?_⟩
      · intro b hb
        obtain ⟨d1, d2⟩ := a3 b hb
        have hl : Leaked s1 b := ⟨by
          have d1 : s1.blocks b = s.blocks b := d1
          rw [d1]; exact hb.1, d2⟩
        obtain ⟨e1, e2⟩ := c3 b hl
        exact ⟨e1.trans d1, e2⟩
      · rcases c4 with ⟨d1, d2, d3⟩ | ⟨e, d1, d2, d3⟩
        · exact .inl ⟨d1, d2, fun b hb => .inl (by
            rcases d3 b hb with d | d
            · rcases b3 b d with d | d
              · exact d
              · exact d.elim
            · exact d.elim)⟩
        · refine .inr ⟨e, d1, fun h => d2 (a2 h), .inr ?_⟩
          rcases d3 with d | ⟨sp'', d3, d4, d5, _⟩
          · exact d.elim
          · exact ⟨sp'', d3, fun y hy => (d4 y hy).trans (hsp y hy), d5.trans hx, False.elim⟩
    · cases b1
      rw [bind_exn hm]
      exact ⟨a1, a2, a3, .inr ⟨e, rfl, b2, .inr (by
        rcases b3 with d | ⟨sp'', d3, d4, d5, _⟩
        · exact d.elim
        · exact ⟨sp'', d3, d4, d5, False.elim⟩)⟩⟩

/-- `m` does not touch the variable `y`. -/
def Keeps {α : Type} (y : Nat) (m : M V α) : Prop := ∀ s, (m s).2.vars y = s.vars y

theorem Keeps.bind {α β : Type} {y : Nat} {m : M V α} {f : α → M V β} (h : Keeps y m)
    (hf : ∀ a, Keeps y (f a)) : Keeps y (m >>> f) := by
  intro s
  have h1 := h s
  unfold M.bind
  match hm : m s with
  | (.ok a, s') => rw [hm] at h1; exact (hf a s').trans h1
  | (.exn e, s') => rw [hm] at h1; exact h1
  | (.ub e, s') => rw [hm] at h1; exact h1
  | (.abort, s') => rw [hm] at h1; exact h1

theorem Keeps.pure {α : Type} {y : Nat} (a : α) : Keeps y (M.pure a : M V α) := fun _ => rfl
theorem Keeps.look {α : Type} {y : Nat} (f : St V → Res α) : Keeps y (M.look f) := fun _ => rfl

theorem Keeps.tick {y : Nat} (e : Exn) : Keeps y (tick e : M V Unit) := by
  intro s; unfold Arr.tick; split <;> rfl

theorem store_vars (p : Option Nat) (i : Nat) (c : Option V) (s : St V) :
    (store p i c s).vars = s.vars := by
  unfold store; split
  · rfl
  · split <;> rfl

theorem Keeps.construct {y : Nat} (p : Option Nat) (i : Nat) (v : V) : Keeps y (construct p i v) := by
  intro s
  unfold Arr.construct
  split
  · apply Keeps.bind (Keeps.tick _)
    intro _ s; simp [store_vars]
  all_goals rfl

theorem Keeps.constructLoop {y : Nat} (p : Option Nat) {src : Nat → M V V} (h : ∀ i, Keeps y (src i)) :
    ∀ n i, Keeps y (constructLoop p src n i)
  | 0, _ => Keeps.pure _
  | n + 1, i => by
    rw [Arr.constructLoop]
    exact (h i).bind fun v => (Keeps.construct p i v).bind fun _ => Keeps.constructLoop p h n (i + 1)

theorem Keeps.destroyLoop {y : Nat} (p : Option Nat) : ∀ n, Keeps y (destroyLoop p n : M V Unit)
  | 0 => Keeps.pure _
  | n + 1 => by
    rw [Arr.destroyLoop]
    refine Keeps.bind ?_ fun _ => Keeps.destroyLoop p n
    intro s; unfold destroyCell; split <;> simp [store_vars]

theorem Keeps.free {y : Nat} (p : Option Nat) : Keeps y (free p : M V Unit) := by
  intro s; unfold Arr.free; split
  · rfl
  · split <;> rfl

theorem Keeps.alloc {y sz n : Nat} : Keeps y (alloc sz n : M V Nat) := by
  unfold Arr.alloc
  exact (Keeps.tick _).bind fun _ s => rfl

theorem resizeWith_vars (sz : Nat) (dflt : V) (x y n : Nat) (hyx : y ≠ x) :
    Keeps y (resizeWith sz (M.pure dflt) x n) := by
  unfold resizeWith
  refine (Keeps.look _).bind fun o => ?_
  split
  · refine Keeps.alloc.bind fun b => (Keeps.constructLoop _ ?_ _ _).bind fun _ =>
      (Keeps.destroyLoop _ _).bind fun _ => (Keeps.free _).bind fun _ s => ?_
    · intro i; split
      · exact Keeps.look _
      · exact Keeps.pure _
    · exact upd_ne _ _ hyx
  · exact Keeps.pure _

/-- Filling from a range of an array, or from outside, in a state where the source is intact. -/
theorem fillSrc_spec {sz : Nat} {s : St V} {sp : Spec V} (h : Sim sz s sp) {x : Nat} {l vs : List V}
    (hx : sp x = some l) (hlen : vs.length = l.length) (q : Sum (List V) (Option Nat × Nat))
    (hq : q = .inl vs ∨ vs = [] ∨ ∃ y i k o, sp y = some k ∧ s.vars y = some o ∧ q = .inr (o.ptr, i) ∧
      ∀ j (hj : j < vs.length), k[i + j]? = some vs[j]) :
    Outcome sz sp (upd sp x (some vs)) s x False False (fun _ => False) (fillWith x (readSrc q) s) := by
  obtain ⟨ox, hox, hwx⟩ := h.alive x l hx
  rw [fillWith, bind_ok (getObj_eq hox)]
  apply assign_core h hox hx vs hlen
  intro k hk s' hs' hb'
  rcases hq with rfl | rfl | ⟨y, i, m, o, hy, ho, rfl, hm⟩
  · exact readSrc_ext hk
  · simp at hk
  · obtain ⟨o', ho', hw⟩ := h.alive y m hy
    rw [ho] at ho'; cases ho'
    obtain ⟨hi, he⟩ := List.getElem?_eq_some_iff.mp (hm k hk)
    rw [readSrc]
    by_cases hyx : y = x
    · subst hyx
      have hoo : ox = o := by rw [ho] at hox; cases hox; rfl
      subst hoo
      rw [hx] at hy; cases hy
      match hp : ox.ptr with
      | none => have := hw.2.1 hp; subst this; simp at hi
      | some b =>
        have hi0 : i = 0 := by
          have hj := List.getElem?_eq_some_iff.mp (hm (vs.length - 1) (by omega))
          obtain ⟨hj, _⟩ := hj
          omega
        have := hb' b hp
        have hi' : i + k < (vs.take k ++ l.drop k).length := by simp; omega
        rw [readCell_eq this hi']
        congr 2
        rw [← he]
        subst hi0
        rw [List.getElem_append_right (by simp; omega)]
        simp only [List.length_take, List.getElem_drop]
        congr 1
        omega
    · rw [hw.read hi, he]
      intro b hb
      apply hs'
      intro hpx
      exact hyx (h.distinct y x o ox b ho hox hb hpx)

/-- Every operation: it is never undefined; without faults it does what it means; an exception
leaves all arrays valid unless the operation is one of the dangerous ones. -/
theorem op_spec {sz : Nat} (hsz : 0 < sz) {dflt : V} {s : St V} {sp sp' : Spec V} {o : Op V}
    (hm : Means sz dflt sp o sp') (h : Sim sz s sp) :
    Outcome sz sp sp' s o.target (Strong o) (Danger sp o) (Drops s o) (op sz dflt o s) := by
  cases hm with
  | @ctorDefault x hx =>
    refine Outcome.done (some []) rfl id (h.put (some []) ?_ ?_ ?_ (Nat.le_refl _) h.fresh ?_)
    · intro y hy; exact upd_ne _ _ hy
    · exact ⟨⟨0, none⟩, upd_same _ _ _, ⟨rfl, fun _ => rfl, fun b hb => by cases hb⟩, by simp [Fits],
        fun b hb => by cases hb⟩
    · intro b _ _; rfl
    · intro b hb hd
      rw [ptrOf_none (h.dead x hx)] at hd
      rcases hd with hd | hd
      · cases hd
      · exact absurd (h.fresh b hd) hb
  | @ctorSize x n hx hf =>
    have := build_spec hsz h hx (List.replicate n dflt) (by simpa using hf) (fun _ => M.pure dflt)
      (by intro k hk s' _; simp [M.pure])
    simp only [List.length_replicate] at this
    exact this.mono (fun _ => trivial) False.elim (fun _ => id)
  | @ctorFill x n a v hx hf ha =>
    rw [op]
    have key : ∀ r, bindArg a s = (.ok r, s) →
        (∀ s', (∀ b, b < s.next → s'.blocks b = s.blocks b) → readArg r s' = (.ok v, s')) →
        Outcome sz sp (upd sp x (some (List.replicate n v))) s x True False (fun _ => False)
          ((bindArg a >>> fun r => build sz n (fun _ => readArg r) x) s) := by
      intro r hr hread
      rw [bind_ok hr]
      have := build_spec hsz h hx (List.replicate n v) (by simpa using hf) (fun _ => readArg r)
        (by intro k hk s' hs'; rw [hread s' hs']; simp)
      simpa only [List.length_replicate] using this
    rcases arg_cases h ha with hr | ⟨y, i, l, o, b, hy, hi, ho, hp, hb, hr⟩
    · exact (key _ hr (fun _ _ => rfl)).mono (fun _ => trivial) False.elim (fun _ => id)
    · exact (key _ hr (fun s' hs' => readArg_elem (by rw [hs' b (h.lt ho hp)]; exact hb) hi)).mono
        (fun _ => trivial) False.elim (fun _ => id)
  | @ctorRange x r vs hx hf hr =>
    rw [op]
    obtain ⟨hd, hc⟩ := src_cases h hr
    have key : ∀ q, bindSrc r s = (.ok q, s) →
        (∀ k (hk : k < vs.length) s', (∀ b, b < s.next → s'.blocks b = s.blocks b) →
          readSrc q k s' = (.ok vs[k], s')) →
        Outcome sz sp (upd sp x (some vs)) s x True False (fun _ => False)
          ((bindSrc r >>> fun q => if r.dist < 0 then
              alloc sz (2 ^ 64 + r.dist).toNat >>> fun _ => fun s => (.abort, s)
            else build sz r.dist.toNat (readSrc q) x) s) := by
      intro q hq hread
      rw [bind_ok hq, if_neg (by omega), hd, Int.toNat_natCast]
      exact build_spec hsz h hx vs hf (readSrc q) hread
    rcases hc with ⟨_, hq⟩ | ⟨y, i, j, l, o, _, hy, ho, hw, hij, hjl, hget, hq⟩
    · exact (key _ hq (fun k hk s' _ => readSrc_ext hk)).mono (fun _ => trivial) False.elim (fun _ => id)
    · refine (key _ hq ?_).mono (fun _ => trivial) False.elim (fun _ => id)
      intro k hk s' hs'
      obtain ⟨hi, he⟩ := List.getElem?_eq_some_iff.mp (hget k hk)
      rw [readSrc, hw.read hi (fun b hb => hs' b (h.lt ho hb)), he]
  | @ctorGen x n g hx hf =>
    have := build_spec hsz h hx ((List.range n).map g) (by simpa using hf) (fun i => M.pure (g i))
      (by intro k hk s' _; simp [M.pure])
    simp only [List.length_map, List.length_range] at this
    exact this.mono (fun _ => trivial) False.elim (fun _ => id)
  | @ctorCopy x y l hx hy =>
    obtain ⟨o, ho, hw⟩ := h.alive y l hy
    rw [op, bind_ok (getObj_eq ho), hw.1]
    exact (build_spec hsz h hx l (h.fits y l hy) (fun i => readCell o.ptr i)
      (by intro k hk s' hs'; exact hw.read hk (fun b hb => hs' b (h.lt ho hb)))).mono
        (fun _ => trivial) False.elim (fun _ => id)
  | @ctorMove x y l hx hy =>
    obtain ⟨o, ho, hw⟩ := h.alive y l hy
    rw [op, bind_ok (getObj_eq ho)]
    refine (move_spec h (by intro he; subst he; rw [hx] at hy; cases hy) hy ho _ _).mono id id ?_
    intro b hb
    rw [ptrOf_none (h.dead x hx)] at hb; cases hb
  | @assignCopy x y k l hx hy =>
    obtain ⟨ox, hox, hwx⟩ := h.alive x k hx
    obtain ⟨oy, hoy, hwy⟩ := h.alive y l hy
    rw [op, bind_ok (getObj_eq hox), bind_ok (getObj_eq hoy)]
    by_cases hs : ox.size = oy.size
    · rw [if_pos hs]
      have hkl : l.length = k.length := by rw [← hwx.1, ← hwy.1, hs]
      refine (assign_core h hox hx l hkl _ ?_).mono id False.elim (fun _ => id)
      intro i hi s' hs' hb'
      by_cases hyx : y = x
      · subst hyx
        rw [hox] at hoy; cases hoy
        rw [hx] at hy; cases hy
        match hp : ox.ptr with
        | none => have := hwx.2.1 hp; subst this; simp at hi
        | some b => exact readCell_eq (by rw [hb' b hp]; simp) hi
      · apply hwy.read hi
        intro b hb
        apply hs'
        intro hpx
        exact hyx (h.distinct y x oy ox b hoy hox hb hpx)
    · rw [if_neg hs, hwy.1]
      refine (rebuild_spec hsz h hox hx l (h.fits y l hy) _ ?_).mono id ?_ (fun _ => id)
      · intro i hi s' hs'
        apply hwy.read hi
        intro b hb
        apply hs' b (h.lt hoy hb)
        intro hpx
        have := h.distinct y x oy ox b hoy hox hb hpx
        subst this
        rw [hox] at hoy; cases hoy; exact hs rfl
      · intro _
        exact ⟨k, l, hx, hy, by rw [← hwx.1, ← hwy.1]; exact hs⟩
  | @assignMove x y k l hx hy hxy =>
    obtain ⟨ox, hox, hwx⟩ := h.alive x k hx
    obtain ⟨oy, hoy, hwy⟩ := h.alive y l hy
    rw [op, bind_ok (getObj_eq hox), bind_ok (getObj_eq hoy), if_pos hxy]
    exact (move_spec h hxy hy hoy _ _).mono id id (fun b hb => ⟨hxy, hb⟩)
  | @assignMoveSelf x l hx =>
    obtain ⟨ox, hox, hwx⟩ := h.alive x l hx
    rw [op, bind_ok (getObj_eq hox), bind_ok (getObj_eq hox), if_neg (by simp)]
    exact ⟨rfl, id, fun b hb => ⟨rfl, hb.2⟩, .inl ⟨rfl, h, fun b hb => .inl hb⟩⟩
  | @resize x n l hx hf =>
    exact (resizeWith_spec hsz h hx hf (M.pure dflt) dflt (fun _ _ => rfl)).mono
      (fun _ => trivial) False.elim (fun _ => id)
  | @resizeVal x n a l v hx hf ha =>
    rw [op]
    rcases arg_cases h ha with hr | ⟨y, i, m, o, b, hy, hi, ho, hp, hb, hr⟩
    · rw [bind_ok hr]
      exact (resizeWith_spec hsz h hx hf _ v (fun _ _ => rfl)).mono (fun _ => trivial) False.elim (fun _ => id)
    · rw [bind_ok hr]
      exact (resizeWith_spec hsz h hx hf _ v
        (fun s' hs' => readArg_elem (by rw [hs' b (h.lt ho hp)]; exact hb) hi)).mono
          (fun _ => trivial) False.elim (fun _ => id)
  | @reallocate x n l hx hf =>
    obtain ⟨ox, hox, hwx⟩ := h.alive x l hx
    rw [op, bind_ok (getObj_eq hox)]
    by_cases hn : n = l.length
    · rw [if_pos hn, upd_self hx, if_neg (by rw [hwx.1]; simp [hn])]
      exact ⟨rfl, id, fun b hb => ⟨rfl, hb.2⟩, .inl ⟨rfl, h, fun b hb => .inl hb⟩⟩
    · rw [if_neg hn, if_pos (by rw [hwx.1]; exact fun h => hn h.symm)]
      have := rebuild_spec hsz h hox hx (List.replicate n dflt) (by simpa using hf)
        (fun _ => M.pure dflt) (by intro k hk s' _; simp [M.pure])
      simp only [List.length_replicate] at this
      exact this.mono id (fun _ => ⟨l, hx, fun h => hn h.symm⟩) (fun _ => id)
  | @swap x y k l hx hy =>
    obtain ⟨ox, hox, hwx⟩ := h.alive x k hx
    obtain ⟨oy, hoy, hwy⟩ := h.alive y l hy
    rw [op, bind_ok (getObj_eq hox), bind_ok (getObj_eq hoy)]
    exact swap_spec h hx hy hox hoy _ _ _
  | @write x i v l hx hi =>
    obtain ⟨o, ho, hw⟩ := h.alive x l hx
    rw [op, bind_ok (getObj_eq ho)]
    match hp : o.ptr with
    | none => have := hw.2.1 hp; subst this; simp at hi
    | some b =>
      have hc : (l.map some)[i]? = some (some l[i]) := by simp [hi]
      have hlt := h.lt ho hp
      rcases assignCell_cases (hw.2.2 b hp) hc v with ⟨s1, h1, hs1, hb1⟩ | ⟨e, s1, h1, hs1, hf, hb1⟩
      · rw [h1]
        refine Outcome.done (some (l.set i v)) hs1.lost hs1.faults (h.put _ ?_ ?_ ?_ ?_ ?_ ?_)
        · intro y _; rw [hs1.vars]
        · refine ⟨o, by rw [hs1.vars]; exact ho, ⟨by simp [hw.1], by simp [hp], ?_⟩,
            by simpa using h.fits x l hx, ?_⟩
          · intro b' hb'; rw [hp] at hb'; cases hb'
            rw [hb1, List.map_set]
          · intro b' hb'; left; rw [ptrOf_eq ho]; exact hb'
        · intro b' _ hne
          apply hs1.blocks
          intro he; subst he; exact hne (by rw [ptrOf_eq ho]; exact hp)
        · rw [hs1.next]; exact Nat.le_refl _
        · intro b' hb'
          rw [hs1.next] at hb'
          rw [hs1.blocks b' (by omega)]; exact h.fresh b' hb'
        · intro b' hb' hd
          rcases hd with hd | hd
          · rw [ptrOf, hs1.vars]; exact hd
          · rw [hs1.blocks b' (by omega), h.fresh b' hd] at hb'
            exact absurd rfl hb'
      · rw [h1]
        refine Outcome.kept hs1.lost hf (h.grow hs1.vars ?_ ?_ ?_)
        · intro b' _
          by_cases he : b' = b
          · subst he; rw [hb1, hw.2.2 b' hp]
          · exact hs1.blocks b' he
        · rw [hs1.next]; exact Nat.le_refl _
        · intro b' hb'
          rw [hs1.next] at hb'
          rw [hs1.blocks b' (by omega)]; exact h.fresh b' hb'
  | @fill x a l v hx ha =>
    rw [op]
    obtain ⟨ox, hox, hwx⟩ := h.alive x l hx
    rcases arg_cases h ha with hr | ⟨y, i, m, o, b, hy, hi, ho, hp, hb, hr⟩
    · rw [bind_ok hr, fillWith, bind_ok (getObj_eq hox)]
      exact (assign_core h hox hx (List.replicate l.length v) (by simp) _
        (by intro k hk s' _ _; simp [readArg, M.pure])).mono id False.elim (fun _ => id)
    · rw [bind_ok hr, fillWith, bind_ok (getObj_eq hox)]
      refine (assign_core h hox hx (List.replicate l.length v) (by simp) _ ?_).mono id False.elim (fun _ => id)
      intro k hk s' hs' hb'
      rw [List.getElem_replicate]
      by_cases hyx : y = x
      · subst hyx
        rw [ho] at hox; cases hox
        rw [hx] at hy; cases hy
        apply readArg_elem (hb' b hp)
        obtain ⟨hil, hv⟩ := List.getElem?_eq_some_iff.mp hi
        simp only [List.length_replicate] at hk
        by_cases hik : i < k
        · rw [List.getElem?_append_left (by simp; omega)]
          simp only [List.take_replicate, List.getElem?_replicate]
          rw [if_pos (by omega)]
        · rw [List.getElem?_append_right (by simp; omega)]
          simp only [List.length_take, List.length_replicate, List.getElem?_drop]
          rw [← hi]; congr 1; omega
      · apply readArg_elem _ hi
        rw [hs' b ?_]
        · exact hb
        · intro hpx
          exact hyx (h.distinct y x o ox b ho hox hp hpx)
  | @fillFrom x r l vs hx hr hlen =>
    rw [op]
    obtain ⟨hd, hc⟩ := src_cases h hr
    rcases hc with ⟨_, hq⟩ | ⟨y, i, j, m, o, _, hy, ho, hw, hij, hjl, hget, hq⟩
    · rw [bind_ok hq]
      exact (fillSrc_spec h hx hlen _ (.inl rfl)).mono id False.elim (fun _ => id)
    · rw [bind_ok hq]
      exact (fillSrc_spec h hx hlen _ (.inr (.inr ⟨y, i, m, o, hy, ho, rfl, hget⟩))).mono id False.elim (fun _ => id)
  | @assign x r l vs hx hf hr hself =>
    rw [op]
    obtain ⟨hd, hc⟩ := src_cases h hr
    have hlt : vs.length < 2 ^ 64 := Nat.lt_of_le_of_lt (Nat.le_mul_of_pos_right _ hsz) hf
    have hn : (r.dist % 2 ^ 64).toNat = vs.length := by rw [hd]; omega
    rw [hn]
    have hrs := resizeWith_spec hsz h hx hf (M.pure dflt) dflt (fun _ _ => rfl)
    generalize hl1 : l.take vs.length ++ List.replicate (vs.length - l.length) dflt = l1 at hrs
    have hlen1 : vs.length = l1.length := by rw [← hl1]; simp; omega
    have hupd : upd (upd sp x (some l1)) x (some vs) = upd sp x (some vs) := by
      funext y; by_cases hy : y = x <;> simp [upd, hy]
    have fin : ∀ q, bindSrc r s = (.ok q, s) →
        (∀ s1, resizeWith sz (M.pure dflt) x vs.length s = (.ok (), s1) → Sim sz s1 (upd sp x (some l1)) →
          q = .inl vs ∨ vs = [] ∨ ∃ y i k o, upd sp x (some l1) y = some k ∧ s1.vars y = some o ∧ q = .inr (o.ptr, i) ∧
            ∀ j (hj : j < vs.length), k[i + j]? = some vs[j]) →
        Outcome sz sp (upd sp x (some vs)) s x False False (fun _ => False)
          ((bindSrc r >>> fun q => resizeWith sz (M.pure dflt) x vs.length >>> fun _ =>
            fillWith x (readSrc q)) s) := by
      intro q hq hsrc
      rw [bind_ok hq]
      refine Outcome.andThen hrs ?_ ?_ ?_
      · intro y hy; rw [upd_ne _ _ hy]
      · rw [upd_same, hx]; simp
      · intro s1 hs1 hsim _
        rw [← hupd]
        exact fillSrc_spec hsim (upd_same _ _ _) hlen1 q (hsrc s1 hs1 hsim)
    rcases hc with ⟨_, hq⟩ | ⟨y, i, j, m, o, hrr, hy, ho, hw, hij, hjl, hget, hq⟩
    · exact (fin _ hq (fun _ _ _ => .inl rfl)).mono id False.elim (fun _ => id)
    · refine (fin _ hq ?_).mono id False.elim (fun _ => id)
      intro s1 hs1 hsim
      right
      by_cases hyx : y = x
      · subst hyx
        rcases hself i j hrr with hvl | hvl
        case inr => exact .inl hvl
        right
        -- the array is not resized
        have : resizeWith sz (M.pure dflt) y vs.length s = (.ok (), s) := by
          obtain ⟨o', ho', hw'⟩ := h.alive y l hx
          rw [resizeWith, bind_ok (getObj_eq ho'), if_neg (by rw [hw'.1]; simp [hvl])]; rfl
        rw [this] at hs1; cases hs1
        have hl1' : l1 = m := by
          rw [hx] at hy; cases hy
          rw [← hl1, hvl]; simp
        exact ⟨y, i, m, o, by rw [upd_same, hl1'], ho, rfl, hget⟩
      · -- another array: its object is unchanged
        right
        have hvars : s1.vars y = s.vars y := by
          have := resizeWith_vars sz dflt x y vs.length hyx s
          rw [hs1] at this; exact this
        exact ⟨y, i, m, o, by rw [upd_ne _ _ hyx]; exact hy, by rw [hvars]; exact ho, rfl, hget⟩
  | @destroy x l hx =>
    obtain ⟨o, ho, hw⟩ := h.alive x l hx
    rw [op, bind_ok (getObj_eq ho)]
    obtain ⟨s1, s2, h1, h2, hb2, hv2, hn2, hl2, hf2⟩ := release_obj hw
    rw [bind_ok h1, bind_ok h2]
    refine Outcome.done none hl2 (fun hh => by show s2.faults = []; rw [hf2]; exact hh)
      (h.put none ?_ ?_ ?_ ?_ ?_ ?_)
    · intro y hy; show upd s2.vars x none y = _; rw [upd_ne _ _ hy, hv2]
    · exact upd_same _ _ _
    · intro b _ hne
      rw [ptrOf_eq ho] at hne
      show s2.blocks b = _; rw [hb2, if_neg hne]
    · show _ ≤ s2.next; rw [hn2]; exact Nat.le_refl _
    · intro b hb
      have hb : s2.next ≤ b := hb
      rw [hn2] at hb
      show s2.blocks b = none
      rw [hb2]; split
      · rfl
      · exact h.fresh b hb
    · intro b hb hd
      have hb : s2.blocks b ≠ none := hb
      rw [ptrOf_eq ho] at hd
      rw [hb2] at hb
      rcases hd with hd | hd
      · simp [hd] at hb
      · rw [h.fresh b hd] at hb; simp at hb

end Helper.Arr
