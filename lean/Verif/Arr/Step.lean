import Verif.Arr.Lemmas
set_option linter.unusedSectionVars false
/-!
# One operation on arrays: memory against values
-/
namespace Helper.Arr

variable {V : Type}

/-- `o` owns exactly the live elements `l`. -/
def Owns (s : St V) (o : Obj) (l : List V) : Prop :=
  o.size = l.length ∧ (o.ptr = none → l = []) ∧ ∀ b, o.ptr = some b → s.blocks b = some (l.map some)

/-- Memory `s` represents the values `sp`. -/
structure Sim (sz : Nat) (s : St V) (sp : Spec V) : Prop where
  fresh : ∀ b, s.next ≤ b → s.blocks b = none
  dead : ∀ x, sp x = none → s.vars x = none
  alive : ∀ x l, sp x = some l → ∃ o, s.vars x = some o ∧ Owns s o l
  fits : ∀ x l, sp x = some l → Fits sz l.length
  distinct : ∀ x y ox oy b, s.vars x = some ox → s.vars y = some oy → ox.ptr = some b →
    oy.ptr = some b → x = y

/-- Some array variable points at block `b`. -/
def Owned (s : St V) (b : Nat) : Prop := ∃ x o, s.vars x = some o ∧ o.ptr = some b

/-- Block `b` is allocated but no array variable points at it. -/
def Leaked (s : St V) (b : Nat) : Prop := s.blocks b ≠ none ∧ ¬ Owned s b

/-- The pointer of variable `x`. -/
def ptrOf (s : St V) (x : Nat) : Option Nat := (s.vars x).bind Obj.ptr

theorem ptrOf_eq {s : St V} {x : Nat} {o : Obj} (h : s.vars x = some o) : ptrOf s x = o.ptr := by
  simp [ptrOf, h]

theorem ptrOf_none {s : St V} {x : Nat} (h : s.vars x = none) : ptrOf s x = none := by
  simp [ptrOf, h]

theorem ptrOf_some {s : St V} {x b : Nat} (h : ptrOf s x = some b) :
    ∃ o, s.vars x = some o ∧ o.ptr = some b := by
  unfold ptrOf at h
  match hv : s.vars x with
  | none => simp [hv] at h
  | some o => exact ⟨o, rfl, by simpa [hv] using h⟩

namespace Sim
variable {sz : Nat} {s s' : St V} {sp : Spec V}

theorem obj (h : Sim sz s sp) {x : Nat} {o : Obj} (hv : s.vars x = some o) :
    ∃ l, sp x = some l ∧ Owns s o l := by
  match hx : sp x with
  | none => rw [h.dead x hx] at hv; cases hv
  | some l =>
    obtain ⟨o', ho', hw⟩ := h.alive x l hx
    rw [hv] at ho'; cases ho'
    exact ⟨l, rfl, hw⟩

theorem lt (h : Sim sz s sp) {x b : Nat} {o : Obj} (hv : s.vars x = some o) (hp : o.ptr = some b) :
    b < s.next := by
  obtain ⟨l, _, hw⟩ := h.obj hv
  have := hw.2.2 b hp
  rcases Nat.lt_or_ge b s.next with hb | hb
  · exact hb
  · rw [h.fresh b hb] at this; cases this

/-- Nothing but blocks not seen before has changed. -/
theorem grow (h : Sim sz s sp) (hv : s'.vars = s.vars)
    (hb : ∀ b, b < s.next → s'.blocks b = s.blocks b)
    (hn : s.next ≤ s'.next) (hf : ∀ b, s'.next ≤ b → s'.blocks b = none) :
    Sim sz s' sp ∧ ∀ b, Leaked s b → s'.blocks b = s.blocks b ∧ ¬ Owned s' b := by
  refine ⟨⟨hf, ?_, ?_, h.fits, ?_⟩, ?_⟩
  · intro x hx; rw [hv]; exact h.dead x hx
  · intro x l hx
    obtain ⟨o, ho, hw⟩ := h.alive x l hx
    refine ⟨o, by rw [hv]; exact ho, hw.1, hw.2.1, ?_⟩
    intro b hp
    rw [hb b (h.lt ho hp)]; exact hw.2.2 b hp
  · intro x y ox oy b hx hy; rw [hv] at hx hy; exact h.distinct x y ox oy b hx hy
  · intro b hl
    have : b < s.next := by
      rcases Nat.lt_or_ge b s.next with hb | hb
      · exact hb
      · exact absurd (h.fresh b hb) hl.1
    exact ⟨hb b this, fun ⟨x, o, hx, hp⟩ => hl.2 ⟨x, o, by rw [← hv]; exact hx, hp⟩⟩

/-- One variable has received a new value, in its old block or a new one. -/
theorem put (h : Sim sz s sp) {x : Nat} (l' : Option (List V))
    (hv : ∀ y, y ≠ x → s'.vars y = s.vars y)
    (hx : match l' with
      | none => s'.vars x = none
      | some l => ∃ o, s'.vars x = some o ∧ Owns s' o l ∧ Fits sz l.length ∧
          ∀ b, o.ptr = some b → ptrOf s x = some b ∨ s.next ≤ b)
    (hb : ∀ b, b < s.next → ptrOf s x ≠ some b → s'.blocks b = s.blocks b)
    (hn : s.next ≤ s'.next) (hf : ∀ b, s'.next ≤ b → s'.blocks b = none)
    (hc : ∀ b, s'.blocks b ≠ none → ptrOf s x = some b ∨ s.next ≤ b → ptrOf s' x = some b) :
    Sim sz s' (upd sp x l') ∧ (∀ b, Leaked s b → s'.blocks b = s.blocks b ∧ ¬ Owned s' b) ∧
      ∀ b, Leaked s' b → Leaked s b := by
  have hother : ∀ y o b, y ≠ x → s.vars y = some o → o.ptr = some b → s'.blocks b = s.blocks b := by
    intro y o b hy ho hp
    apply hb b (h.lt ho hp)
    intro hpx
    obtain ⟨o', ho', hp'⟩ := ptrOf_some hpx
    exact hy (h.distinct y x o o' b ho ho' hp hp')
  have hnew : ∀ o b, s'.vars x = some o → o.ptr = some b → ptrOf s x = some b ∨ s.next ≤ b := by
    intro o b ho hp
    match l', hx with
    | none, hx => rw [hx] at ho; cases ho
    | some l, ⟨o', ho', _, _, h3⟩ => rw [ho] at ho'; cases ho'; exact h3 b hp
  have hleak : ∀ b, Leaked s b → b < s.next ∧ ptrOf s x ≠ some b := by
    intro b hl
    constructor
    · rcases Nat.lt_or_ge b s.next with hb | hb
      · exact hb
      · exact absurd (h.fresh b hb) hl.1
    · intro hp
      obtain ⟨o, ho, hp⟩ := ptrOf_some hp
      exact hl.2 ⟨x, o, ho, hp⟩
  refine ⟨⟨hf, ?_, ?_, ?_, ?_⟩, ?_, ?_⟩
  · intro y hy
    by_cases hyx : y = x
    · subst hyx
      rw [upd_same] at hy; subst hy; exact hx
    · rw [upd_ne _ _ hyx] at hy; rw [hv y hyx]; exact h.dead y hy
  · intro y l hy
    by_cases hyx : y = x
    · subst hyx
      rw [upd_same] at hy; subst hy
      obtain ⟨o, ho, hw, _⟩ := hx
      exact ⟨o, ho, hw⟩
    · rw [upd_ne _ _ hyx] at hy
      obtain ⟨o, ho, hw⟩ := h.alive y l hy
      refine ⟨o, by rw [hv y hyx]; exact ho, hw.1, hw.2.1, ?_⟩
      intro b hp
      rw [hother y o b hyx ho hp]; exact hw.2.2 b hp
  · intro y l hy
    by_cases hyx : y = x
    · subst hyx
      rw [upd_same] at hy; subst hy
      obtain ⟨o, ho, hw, hfit, _⟩ := hx
      exact hfit
    · rw [upd_ne _ _ hyx] at hy; exact h.fits y l hy
  · have key : ∀ z oz o b, z ≠ x → s'.vars x = some o → s'.vars z = some oz → o.ptr = some b →
        oz.ptr = some b → False := by
      intro z oz o b hz ho hoz hp hpz
      rw [hv z hz] at hoz
      rcases hnew o b ho hp with hpx | hge
      · obtain ⟨o', ho', hp'⟩ := ptrOf_some hpx
        exact hz (h.distinct z x oz o' b hoz ho' hpz hp')
      · have := h.lt hoz hpz; omega
    intro y z oy oz b hy hz hpy hpz
    by_cases hyx : y = x
    · by_cases hzx : z = x
      · rw [hyx, hzx]
      · subst hyx; exact (key z oz oy b hzx hy hz hpy hpz).elim
    · by_cases hzx : z = x
      · subst hzx; exact (key y oy oz b hyx hz hy hpz hpy).elim
      · rw [hv y hyx] at hy; rw [hv z hzx] at hz
        exact h.distinct y z oy oz b hy hz hpy hpz
  · intro b hl
    obtain ⟨hlt, hne⟩ := hleak b hl
    refine ⟨hb b hlt hne, ?_⟩
    rintro ⟨y, o, ho, hp⟩
    by_cases hyx : y = x
    · subst hyx
      rcases hnew o b ho hp with hpx | hge
      · exact hne hpx
      · omega
    · rw [hv y hyx] at ho; exact hl.2 ⟨y, o, ho, hp⟩
  · intro b hl
    by_cases hd : ptrOf s x = some b ∨ s.next ≤ b
    · have := hc b hl.1 hd
      obtain ⟨o, ho, hp⟩ := ptrOf_some this
      exact absurd ⟨x, o, ho, hp⟩ hl.2
    · have h1 : ptrOf s x ≠ some b := fun h => hd (.inl h)
      have h2 : b < s.next := by rcases Nat.lt_or_ge b s.next with hb | hb
                                 · exact hb
                                 · exact absurd (.inr hb) hd
      refine ⟨by rw [← hb b h2 h1]; exact hl.1, ?_⟩
      rintro ⟨y, o, ho, hp⟩
      by_cases hyx : y = x
      · subst hyx; exact h1 (by rw [ptrOf_eq ho, hp])
      · exact hl.2 ⟨y, o, by rw [hv y hyx]; exact ho, hp⟩

end Sim

/-- What may come of an operation on `x` whose meaning is `sp'`. -/
def Outcome (sz : Nat) (sp sp' : Spec V) (s : St V) (x : Nat) (strong danger : Prop)
    (drops : Nat → Prop) (p : Res Unit × St V) : Prop :=
  p.2.lost = s.lost ∧ (s.faults = [] → p.2.faults = []) ∧
  (∀ b, Leaked s b → p.2.blocks b = s.blocks b ∧ ¬ Owned p.2 b) ∧
  ((p.1 = .ok () ∧ Sim sz p.2 sp' ∧ ∀ b, Leaked p.2 b → Leaked s b ∨ drops b) ∨
   (∃ e, p.1 = .exn e ∧ s.faults ≠ [] ∧
     (danger ∨ ∃ sp'', Sim sz p.2 sp'' ∧ (∀ y, y ≠ x → sp'' y = sp y) ∧ (sp'' x = none ↔ sp x = none) ∧
       (strong → sp'' = sp))))

theorem Outcome.mono {sz : Nat} {sp sp' : Spec V} {s : St V} {x : Nat} {strong strong' danger danger' : Prop}
    {drops drops' : Nat → Prop} {p : Res Unit × St V} (h : Outcome sz sp sp' s x strong danger drops p)
    (hs : strong' → strong) (hd : danger → danger') (hr : ∀ b, drops b → drops' b) :
    Outcome sz sp sp' s x strong' danger' drops' p := by
  obtain ⟨h1, h2, h3, h4⟩ := h
  refine ⟨h1, h2, h3, ?_⟩
  rcases h4 with ⟨a, b, c⟩ | ⟨e, a, b, c⟩
  · exact .inl ⟨a, b, fun x hx => (c x hx).imp id (hr x)⟩
  · refine .inr ⟨e, a, b, ?_⟩
    rcases c with c | ⟨sp'', c1, c2, c3, c4⟩
    · exact .inl (hd c)
    · exact .inr ⟨sp'', c1, c2, c3, fun h => c4 (hs h)⟩

/-- No exception: the operation has put a value into `x`. -/
theorem Outcome.done {sz : Nat} {sp : Spec V} {s s' : St V} {x : Nat} (l' : Option (List V))
    {strong danger : Prop} {drops : Nat → Prop}
    (hl : s'.lost = s.lost) (hf : s.faults = [] → s'.faults = [])
    (hp : Sim sz s' (upd sp x l') ∧ (∀ b, Leaked s b → s'.blocks b = s.blocks b ∧ ¬ Owned s' b) ∧
      ∀ b, Leaked s' b → Leaked s b) :
    Outcome sz sp (upd sp x l') s x strong danger drops (.ok (), s') :=
  ⟨hl, hf, hp.2.1, .inl ⟨rfl, hp.1, fun b hb => .inl (hp.2.2 b hb)⟩⟩

/-- An exception that left all values alone. -/
theorem Outcome.kept {sz : Nat} {sp sp' : Spec V} {s s' : St V} {x : Nat} {e : Exn}
    {strong danger : Prop} {drops : Nat → Prop}
    (hl : s'.lost = s.lost) (hf : s.faults ≠ [])
    (hp : Sim sz s' sp ∧ ∀ b, Leaked s b → s'.blocks b = s.blocks b ∧ ¬ Owned s' b) :
    Outcome sz sp sp' s x strong danger drops (.exn e, s') :=
  ⟨hl, fun h => absurd h hf, hp.2, .inr ⟨e, rfl, hf, .inr ⟨sp, hp.1, fun _ _ => rfl, Iff.rfl, fun _ => rfl⟩⟩⟩

theorem getObj_eq {s : St V} {x : Nat} {o : Obj} (h : s.vars x = some o) : getObj x s = (.ok o, s) := by
  simp [getObj, M.look, h]

theorem readCell_eq {s : St V} {b i : Nat} {l : List V} (hb : s.blocks b = some (l.map some))
    (hi : i < l.length) : readCell (some b) i s = (.ok l[i], s) := by
  simp [readCell, M.look, cell, hb, hi]

theorem Owns.read {s s' : St V} {o : Obj} {l : List V} (h : Owns s o l) {i : Nat} (hi : i < l.length)
    (hb : ∀ b, o.ptr = some b → s'.blocks b = s.blocks b) : readCell o.ptr i s' = (.ok l[i], s') := by
  match hp : o.ptr with
  | none => have := h.2.1 hp; subst this; simp at hi
  | some b => exact readCell_eq (by rw [hb b hp]; exact h.2.2 b hp) hi

/-- Destroying the elements and freeing the storage of an array. -/
theorem release_obj {s : St V} {o : Obj} {l : List V} (h : Owns s o l) :
    ∃ s1 s2, destroyLoop o.ptr o.size s = (.ok (), s1) ∧ free o.ptr s1 = (.ok (), s2) ∧
      (∀ b, s2.blocks b = if o.ptr = some b then none else s.blocks b) ∧ s2.vars = s.vars ∧
      s2.next = s.next ∧ s2.lost = s.lost ∧ s2.faults = s.faults := by
  match hp : o.ptr with
  | none =>
    have := h.2.1 hp
    refine ⟨s, s, ?_, rfl, by simp, rfl, rfl, rfl, rfl⟩
    rw [h.1, this]; rfl
  | some b =>
    obtain ⟨s1, s2, h1, h2, h3, h4, h5, h6, h7⟩ := release_spec (h.2.2 b hp)
    refine ⟨s1, s2, by rw [h.1]; exact h1, h2, ?_, h4, h5, h6, h7⟩
    intro b'
    rw [h3 b']
    by_cases hbb : b' = b
    · subst hbb; simp
    · have : ¬ (some b = some b') := by simpa using fun h => hbb h.symm
      simp [hbb, this]

/-- Constructors. -/
theorem build_spec {sz : Nat} (hsz : 0 < sz) {s : St V} {sp : Spec V} (h : Sim sz s sp) {x : Nat}
    (hx : sp x = none) (vs : List V) (hfit : Fits sz vs.length) (src : Nat → M V V)
    (hsrc : ∀ k (hk : k < vs.length) s', (∀ b, b < s.next → s'.blocks b = s.blocks b) →
      src k s' = (.ok vs[k], s')) :
    Outcome sz sp (upd sp x (some vs)) s x True False (fun _ => False) (build sz vs.length src x s) := by
  unfold build
  rcases alloc_cases hsz hfit s with ⟨s1, h1, hb1, hv1, hn1, hl1, hf1⟩ | ⟨e, s1, h1, hf1, hb1, hv1, hn1, hl1⟩
  · rw [bind_ok h1]
    obtain ⟨r, s2, h2, hs2, h3⟩ := constructLoop_spec (b := s.next) src vs [] s1 (by rw [hb1]; simp) (by
      intro k hk s' hs'
      simp only [List.length_nil, Nat.zero_add]
      apply hsrc k hk
      intro b hb
      rw [hs'.blocks b (by omega), hb1 b, if_neg (by omega)])
    simp only [List.length_nil] at h2
    have hbs : ∀ b, b ≠ s.next → s2.blocks b = s.blocks b := by
      intro b hb
      rw [hs2.blocks b hb, hb1 b, if_neg hb]
    rcases h3 with ⟨hr, hb2⟩ | ⟨e, hr, hf, c, hb2⟩
    · subst hr
      rw [bind_ok h2]
      refine Outcome.done (some vs) ?_ ?_ (h.put (some vs) ?_ ?_ ?_ ?_ ?_ ?_)
      · exact hs2.lost.trans hl1
      · exact fun h => hs2.faults (hf1 h)
      · intro y hy
        show upd s2.vars x _ y = _
        rw [upd_ne _ _ hy, hs2.vars, hv1]
      · refine ⟨⟨vs.length, some s.next⟩, upd_same _ _ _, ⟨rfl, by simp, ?_⟩, hfit, ?_⟩
        · intro b hb; cases hb; exact hb2
        · intro b hb; cases hb; right; omega
      · intro b hb _; exact hbs b (by omega)
      · show _ ≤ s2.next
        rw [hs2.next, hn1]; omega
      · intro b hb
        have hb : s2.next ≤ b := hb
        rw [hs2.next, hn1] at hb
        show s2.blocks b = none
        rw [hbs b (by omega), h.fresh b (by omega)]
      · intro b hb hd
        have hb : s2.blocks b ≠ none := hb
        have hxx : ptrOf s x = none := ptrOf_none (h.dead x hx)
        rw [hxx] at hd
        rcases hd with hd | hd
        · cases hd
        · have : b = s.next := by
            apply Classical.byContradiction
            intro hne
            rw [hbs b hne] at hb
            exact hb (h.fresh b hd)
          subst this
          rw [ptrOf_eq (upd_same _ _ _)]
    · subst hr
      rw [bind_exn h2]
      refine Outcome.kept (hs2.lost.trans hl1) (fun h => hf (hf1 h)) (h.grow ?_ ?_ ?_ ?_)
      · rw [hs2.vars, hv1]
      · intro b hb; exact hbs b (by omega)
      · rw [hs2.next, hn1]; omega
      · intro b hb
        rw [hs2.next, hn1] at hb
        rw [hbs b (by omega)]; exact h.fresh b (by omega)
  · rw [bind_exn h1]
    refine Outcome.kept hl1 hf1 (h.grow hv1 ?_ ?_ ?_)
    · intro b _; rw [hb1]
    · omega
    · intro b hb; rw [hb1]; exact h.fresh b (by omega)

/-- `resize`. -/
theorem resizeWith_spec {sz : Nat} (hsz : 0 < sz) {s : St V} {sp : Spec V} (h : Sim sz s sp) {x n : Nat}
    {l : List V} (hx : sp x = some l) (hfit : Fits sz n) (dv : M V V) (v : V)
    (hdv : ∀ s', (∀ b, b < s.next → s'.blocks b = s.blocks b) → dv s' = (.ok v, s')) :
    Outcome sz sp (upd sp x (some (l.take n ++ List.replicate (n - l.length) v))) s x True False
      (fun _ => False) (resizeWith sz dv x n s) := by
  obtain ⟨o, ho, hw⟩ := h.alive x l hx
  unfold resizeWith
  rw [bind_ok (getObj_eq ho), hw.1]
  by_cases hn : l.length = n
  · subst hn
    rw [if_neg (by simp)]
    have hsp : upd sp x (some (l.take l.length ++ List.replicate (l.length - l.length) v)) = sp := by
      funext y
      by_cases hy : y = x
      · subst hy; rw [upd_same]; simp [hx]
      · rw [upd_ne _ _ hy]
    rw [hsp]
    exact ⟨rfl, id, fun b hb => ⟨rfl, hb.2⟩, .inl ⟨rfl, h, fun b hb => .inl hb⟩⟩
  · rw [if_pos hn]
    generalize hvs : l.take n ++ List.replicate (n - l.length) v = vs
    have hlen : vs.length = n := by rw [← hvs]; simp; omega
    have hg1 : ∀ k (hk : k < vs.length) (hkl : k < l.length), l[k] = vs[k] := by
      intro k hk hkl
      subst hvs
      rw [List.getElem_append_left (by simp at hk ⊢; omega)]
      simp
    have hg2 : ∀ k (hk : k < vs.length), ¬ k < l.length → v = vs[k] := by
      intro k hk hkl
      subst hvs
      rw [List.getElem_append_right (by simp at hk ⊢; omega)]
      simp
    subst hlen
    rcases alloc_cases hsz hfit s with ⟨s1, h1, hb1, hv1, hn1, hl1, hf1⟩ | ⟨e, s1, h1, hf1, hb1, hv1, hn1, hl1⟩
    · rw [bind_ok h1]
      obtain ⟨r, s2, h2, hs2, h3⟩ := constructLoop_spec (b := s.next)
          (fun i => if i < l.length then readCell o.ptr i else dv) vs [] s1 (by rw [hb1]; simp) (by
        intro k hk s' hs'
        simp only [List.length_nil, Nat.zero_add]
        have hsame : ∀ b, b < s.next → s'.blocks b = s.blocks b := by
          intro b hb
          rw [hs'.blocks b (by omega), hb1 b, if_neg (by omega)]
        by_cases hkl : k < l.length
        · rw [if_pos hkl, hw.read hkl (fun b hb => hsame b (h.lt ho hb))]
          rw [hg1 k hk hkl]
        · rw [if_neg hkl, hdv s' hsame]
          rw [← hg2 k hk hkl])
      simp only [List.length_nil] at h2
      have hbs : ∀ b, b ≠ s.next → s2.blocks b = s.blocks b := by
        intro b hb
        rw [hs2.blocks b hb, hb1 b, if_neg hb]
      rcases h3 with ⟨hr, hb2⟩ | ⟨e, hr, hf, c, hb2⟩
      · subst hr
        rw [bind_ok h2]
        have hw2 : Owns s2 o l := ⟨hw.1, hw.2.1, fun b hb => by
          have := h.lt ho hb
          rw [hbs b (by omega)]; exact hw.2.2 b hb⟩
        obtain ⟨s3, s4, h4, h5, hb4, hv4, hn4, hl4, hf4⟩ := release_obj hw2
        rw [hw.1] at h4
        rw [bind_ok h4, bind_ok h5]
        have hpn : o.ptr ≠ some s.next := fun hp => absurd (h.lt ho hp) (by omega)
        refine Outcome.done (some vs) ?_ ?_ (h.put (some vs) ?_ ?_ ?_ ?_ ?_ ?_)
        · exact hl4.trans (hs2.lost.trans hl1)
        · exact fun h => (by show s4.faults = []; rw [hf4]; exact hs2.faults (hf1 h))
        · intro y hy
          show upd s4.vars x _ y = _
          rw [upd_ne _ _ hy, hv4, hs2.vars, hv1]
        · refine ⟨⟨vs.length, some s.next⟩, upd_same _ _ _, ⟨rfl, by simp, ?_⟩, hfit, ?_⟩
          · intro b hb; cases hb
            show s4.blocks s.next = _
            rw [hb4, if_neg hpn, hb2]; simp
          · intro b hb; cases hb; right; omega
        · intro b hb hne
          rw [ptrOf_eq ho] at hne
          show s4.blocks b = _
          rw [hb4, if_neg hne, hbs b (by omega)]
        · show _ ≤ s4.next
          rw [hn4, hs2.next, hn1]; omega
        · intro b hb
          have hb : s4.next ≤ b := hb
          rw [hn4, hs2.next, hn1] at hb
          show s4.blocks b = none
          rw [hb4]
          split
          · rfl
          · rw [hbs b (by omega), h.fresh b (by omega)]
        · intro b hb hd
          have hb : s4.blocks b ≠ none := hb
          rw [ptrOf_eq ho] at hd
          rw [hb4] at hb
          have hne : o.ptr ≠ some b := by intro h'; simp [h'] at hb
          rw [if_neg hne] at hb
          have : b = s.next := by
            apply Classical.byContradiction
            intro hne'
            rw [hbs b hne'] at hb
            rcases hd with hd | hd
            · exact hne hd
            · exact hb (h.fresh b hd)
          subst this
          rw [ptrOf_eq (upd_same _ _ _)]
      · subst hr
        rw [bind_exn h2]
        refine Outcome.kept (hs2.lost.trans hl1) (fun h => hf (hf1 h)) (h.grow ?_ ?_ ?_ ?_)
        · rw [hs2.vars, hv1]
        · intro b hb; exact hbs b (by omega)
        · rw [hs2.next, hn1]; omega
        · intro b hb
          rw [hs2.next, hn1] at hb
          rw [hbs b (by omega)]; exact h.fresh b (by omega)
    · rw [bind_exn h1]
      refine Outcome.kept hl1 hf1 (h.grow hv1 ?_ ?_ ?_)
      · intro b _; rw [hb1]
      · omega
      · intro b hb; rw [hb1]; exact h.fresh b (by omega)

/-- Elementwise assignment. -/
theorem assign_core {sz : Nat} {s : St V} {sp : Spec V} (h : Sim sz s sp) {x : Nat}
    {l : List V} {o : Obj} (ho : s.vars x = some o) (hx : sp x = some l) (vs : List V)
    (hlen : vs.length = l.length) (src : Nat → M V V)
    (hsrc : ∀ k (hk : k < vs.length) s', (∀ b, o.ptr ≠ some b → s'.blocks b = s.blocks b) →
      (∀ b, o.ptr = some b → s'.blocks b = some ((vs.take k ++ l.drop k).map some)) →
      src k s' = (.ok vs[k], s')) :
    Outcome sz sp (upd sp x (some vs)) s x False False (fun _ => False) (assignLoop o.ptr src o.size 0 s) := by
  obtain ⟨o', ho', hw⟩ := h.alive x l hx
  rw [ho] at ho'; cases ho'
  have hfit : Fits sz vs.length := by rw [hlen]; exact h.fits x l hx
  match hp : o.ptr with
  | none =>
    have hnil := hw.2.1 hp
    have h0 : o.size = 0 := by rw [hw.1, hnil]; rfl
    have hvs : vs = [] := by rw [hnil] at hlen; exact List.length_eq_zero_iff.mp hlen
    rw [h0]
    have hsp : upd sp x (some vs) = sp := by
      funext y
      by_cases hy : y = x
      · subst hy; rw [upd_same, hx, hvs, hnil]
      · rw [upd_ne _ _ hy]
    rw [hsp]
    exact ⟨rfl, id, fun b hb => ⟨rfl, hb.2⟩, .inl ⟨rfl, h, fun b hb => .inl hb⟩⟩
  | some b =>
    have hlt := h.lt ho hp
    have hpx : ptrOf s x = some b := by rw [ptrOf_eq ho, hp]
    obtain ⟨r, s', h1, hs1, h3⟩ := assignLoop_spec (b := b) src l vs hlen l.length 0 s (by omega)
      (by simpa using hw.2.2 b hp) (by
        intro k hk s' _ hs' hb'
        apply hsrc k hk s'
        · intro b' hb''
          apply hs'.blocks
          intro he; subst he; exact hb'' hp
        · intro b' hb''
          rw [hp] at hb''; cases hb''; exact hb')
    rw [hw.1, h1]
    have hput : ∀ l' : List V, l'.length = l.length → s'.blocks b = some (l'.map some) →
        Sim sz s' (upd sp x (some l')) ∧ (∀ b, Leaked s b → s'.blocks b = s.blocks b ∧ ¬ Owned s' b) ∧
          ∀ b, Leaked s' b → Leaked s b := by
      intro l' hl' hb'
      refine h.put (some l') ?_ ?_ ?_ ?_ ?_ ?_
      · intro y _; rw [hs1.vars]
      · refine ⟨o, by rw [hs1.vars]; exact ho, ⟨hw.1.trans hl'.symm, by simp [hp], ?_⟩,
          by rw [hl']; exact h.fits x l hx, ?_⟩
        · intro b' hp'; rw [hp] at hp'; cases hp'; exact hb'
        · intro b' hp'; left; rw [ptrOf_eq ho]; exact hp'
      · intro b' hlt' hne
        apply hs1.blocks
        intro he; subst he; exact hne hpx
      · rw [hs1.next]; exact Nat.le_refl _
      · intro b' hge
        rw [hs1.next] at hge
        rw [hs1.blocks b' (by omega)]; exact h.fresh b' hge
      · intro b' hb'' hd
        have : ptrOf s' x = some b := by rw [ptrOf, hs1.vars]; exact hpx
        rcases hd with hd | hd
        · rw [this, ← hpx, hd]
        · exfalso
          rw [hs1.blocks b' (by omega)] at hb''
          exact hb'' (h.fresh b' hd)
    rcases h3 with ⟨hr, hb'⟩ | ⟨e, hr, hf, l', hl', hb'⟩
    · subst hr
      exact Outcome.done (some vs) hs1.lost hs1.faults (hput vs hlen hb')
    · subst hr
      have := hput l' hl' hb'
      refine ⟨hs1.lost, hs1.faults, this.2.1, .inr ⟨e, rfl, hf, .inr ⟨_, this.1, ?_, ?_, False.elim⟩⟩⟩
      · intro y hy; rw [upd_ne _ _ hy]
      · rw [upd_same, hx]; simp

/-- Release, allocate, construct: copy assignment between different sizes and `reallocate`. -/
theorem rebuild_spec {sz : Nat} (hsz : 0 < sz) {s : St V} {sp : Spec V} (h : Sim sz s sp) {x : Nat}
    {l : List V} {o : Obj} (ho : s.vars x = some o) (hx : sp x = some l) (vs : List V)
    (hfit : Fits sz vs.length) (src : Nat → M V V)
    (hsrc : ∀ k (hk : k < vs.length) s', (∀ b, b < s.next → o.ptr ≠ some b → s'.blocks b = s.blocks b) →
      src k s' = (.ok vs[k], s')) :
    Outcome sz sp (upd sp x (some vs)) s x False True (fun _ => False)
      ((destroyLoop o.ptr o.size >>> fun _ => free o.ptr >>> fun _ =>
        setObj x ⟨vs.length, o.ptr⟩ >>> fun _ =>
        alloc sz vs.length >>> fun b => setObj x ⟨vs.length, some b⟩ >>> fun _ =>
        constructLoop (some b) src vs.length 0) s) := by
  obtain ⟨o', ho', hw⟩ := h.alive x l hx
  rw [ho] at ho'; cases ho'
  obtain ⟨s1, s2, h1, h2, hb2, hv2, hn2, hl2, hf2⟩ := release_obj hw
  rw [bind_ok h1, bind_ok h2]
  have h3 : setObj x ⟨vs.length, o.ptr⟩ s2 =
    (.ok (), { s2 with vars := upd s2.vars x (some ⟨vs.length, o.ptr⟩) }) := rfl
  rw [bind_ok h3]
  generalize hs3 : ({ s2 with vars := upd s2.vars x (some ⟨vs.length, o.ptr⟩) } : St V) = s3
  have hb3 : s3.blocks = s2.blocks := by rw [← hs3]
  have hn3 : s3.next = s.next := by rw [← hs3]; exact hn2
  have hl3 : s3.lost = s.lost := by rw [← hs3]; exact hl2
  have hf3 : s3.faults = s.faults := by rw [← hs3]; exact hf2
  have hv3 : s3.vars = upd s.vars x (some ⟨vs.length, o.ptr⟩) := by rw [← hs3, ← hv2]
  have hleak : ∀ b, Leaked s b → b < s.next ∧ o.ptr ≠ some b := by
    intro b hl
    constructor
    · rcases Nat.lt_or_ge b s.next with hb | hb
      · exact hb
      · exact absurd (h.fresh b hb) hl.1
    · exact fun hp => hl.2 ⟨x, o, ho, hp⟩
  rcases alloc_cases hsz hfit s3 with ⟨s4, h4, hb4, hv4, hn4, hl4, hf4⟩ | ⟨e, s4, h4, hf4, hb4, hv4, hn4, hl4⟩
  · rw [bind_ok h4]
    have h5 : setObj x ⟨vs.length, some s3.next⟩ s4 =
      (.ok (), { s4 with vars := upd s4.vars x (some ⟨vs.length, some s3.next⟩) }) := rfl
    rw [bind_ok h5]
    generalize hs5 : ({ s4 with vars := upd s4.vars x (some ⟨vs.length, some s3.next⟩) } : St V) = s5
    have hb5 : ∀ b, s5.blocks b = if b = s.next then some (List.replicate vs.length none) else
        if o.ptr = some b then none else s.blocks b := by
      intro b
      rw [← hs5]; show s4.blocks b = _
      rw [hb4, hb3, hb2, hn3]
    have hn5 : s5.next = s.next + 1 := by rw [← hs5]; show s4.next = _; rw [hn4, hn3]
    have hl5 : s5.lost = s.lost := by rw [← hs5]; show s4.lost = _; rw [hl4, hl3]
    have hf5 : s.faults = [] → s5.faults = [] := by
      intro hh; rw [← hs5]; show s4.faults = _; exact hf4 (by rw [hf3]; exact hh)
    have hv5 : ∀ y, s5.vars y = if y = x then some ⟨vs.length, some s.next⟩ else s.vars y := by
      intro y
      rw [← hs5]; show upd s4.vars x _ y = _
      by_cases hy : y = x
      · subst hy; rw [upd_same, if_pos rfl, hn3]
      · rw [upd_ne _ _ hy, if_neg hy, hv4, hv3, upd_ne _ _ hy]
    have hbs5 : ∀ b, b < s.next → o.ptr ≠ some b → s5.blocks b = s.blocks b := by
      intro b hb hne; rw [hb5, if_neg (by omega), if_neg hne]
    obtain ⟨r, s6, h6, hs6, h7⟩ := constructLoop_spec (b := s.next) src vs [] s5 (by rw [hb5]; simp) (by
      intro k hk s' hs'
      simp only [List.length_nil, Nat.zero_add]
      apply hsrc k hk s'
      intro b hb hne
      rw [hs'.blocks b (by omega)]; exact hbs5 b hb hne)
    simp only [List.length_nil] at h6
    rw [hn3, h6]
    have hv6 : ∀ y, s6.vars y = if y = x then some ⟨vs.length, some s.next⟩ else s.vars y := by
      intro y; rw [hs6.vars]; exact hv5 y
    rcases h7 with ⟨hr, hb6⟩ | ⟨e, hr, hf, c, hb6⟩
    · subst hr
      refine Outcome.done (some vs) (hs6.lost.trans hl5) (fun hh => hs6.faults (hf5 hh))
        (h.put (some vs) ?_ ?_ ?_ ?_ ?_ ?_)
      · intro y hy; rw [hv6, if_neg hy]
      · refine ⟨⟨vs.length, some s.next⟩, by rw [hv6, if_pos rfl], ⟨rfl, by simp, ?_⟩, hfit, ?_⟩
        · intro b hb; cases hb; rw [hb6]; simp
        · intro b hb; cases hb; right; omega
      · intro b hb hne
        rw [ptrOf_eq ho] at hne
        rw [hs6.blocks b (by omega)]; exact hbs5 b hb hne
      · rw [hs6.next, hn5]; omega
      · intro b hb
        rw [hs6.next, hn5] at hb
        rw [hs6.blocks b (by omega), hb5, if_neg (by omega)]
        split
        · rfl
        · exact h.fresh b (by omega)
      · intro b hb hd
        have : b = s.next := by
          apply Classical.byContradiction
          intro hne
          rw [hs6.blocks b hne, hb5, if_neg hne] at hb
          rw [ptrOf_eq ho] at hd
          rcases hd with hd | hd
          · simp [hd] at hb
          · rw [h.fresh b hd] at hb; simp at hb
        rw [ptrOf, hv6, if_pos rfl, this]; rfl
    · subst hr
      refine ⟨hs6.lost.trans hl5, fun hh => hs6.faults (hf5 hh), ?_, .inr ⟨e, rfl, fun hh => hf (hf5 hh), .inl trivial⟩⟩
      intro b hb
      obtain ⟨hlt, hne⟩ := hleak b hb
      refine ⟨by rw [hs6.blocks b (by omega)]; exact hbs5 b hlt hne, ?_⟩
      rintro ⟨y, o', hy, hp⟩
      rw [hv6] at hy
      by_cases hyx : y = x
      · rw [if_pos hyx] at hy; cases hy; cases hp; omega
      · rw [if_neg hyx] at hy; exact hb.2 ⟨y, o', hy, hp⟩
  · rw [bind_exn h4]
    refine ⟨hl4.trans hl3, fun hh => absurd (by rw [hf3]; exact hh) hf4, ?_,
      .inr ⟨e, rfl, by rw [← hf3]; exact hf4, .inl trivial⟩⟩
    intro b hb
    obtain ⟨hlt, hne⟩ := hleak b hb
    refine ⟨by rw [hb4, hb3, hb2, if_neg hne], ?_⟩
    rintro ⟨y, o', hy, hp⟩
    rw [hv4, hv3] at hy
    by_cases hyx : y = x
    · rw [hyx, upd_same] at hy; cases hy; exact hne hp
    · rw [upd_ne _ _ hyx] at hy; exact hb.2 ⟨y, o', hy, hp⟩

/-- A reference argument. -/
theorem arg_cases {sz : Nat} {s : St V} {sp : Spec V} (h : Sim sz s sp) {a : Arg V} {v : V}
    (ha : argVal sp a = some v) :
    bindArg a s = (.ok (.inl v), s) ∨
    ∃ y i l o b, sp y = some l ∧ l[i]? = some v ∧ s.vars y = some o ∧ o.ptr = some b ∧
      s.blocks b = some (l.map some) ∧ bindArg a s = (.ok (.inr (some b, i)), s) := by
  match a, ha with
  | .ext w, ha => left; cases ha; rfl
  | .elem y i, ha =>
    right
    simp only [argVal, Option.bind_eq_some_iff] at ha
    obtain ⟨l, hl, hi⟩ := ha
    obtain ⟨o, ho, hw⟩ := h.alive y l hl
    have hp : ∃ b, o.ptr = some b := by
      match hp : o.ptr with
      | none => rw [hw.2.1 hp] at hi; simp at hi
      | some b => exact ⟨b, rfl⟩
    obtain ⟨b, hp⟩ := hp
    refine ⟨y, i, l, o, b, hl, hi, ho, hp, hw.2.2 b hp, ?_⟩
    rw [bindArg, bind_ok (getObj_eq ho), hp]; rfl

theorem readArg_elem {s : St V} {b i : Nat} {l : List V} {v : V} (hb : s.blocks b = some (l.map some))
    (hi : l[i]? = some v) : readArg (.inr (some b, i)) s = (.ok v, s) := by
  obtain ⟨h, he⟩ := List.getElem?_eq_some_iff.mp hi
  rw [readArg, readCell_eq hb h, he]

/-- A sequence argument. -/
theorem src_cases {sz : Nat} {s : St V} {sp : Spec V} (h : Sim sz s sp) {r : Src V} {vs : List V}
    (hr : srcVal sp r = some vs) :
    r.dist = vs.length ∧
    ((r = .ext vs ∧ bindSrc r s = (.ok (.inl vs), s)) ∨
     ∃ y i j l o, r = .range y i j ∧ sp y = some l ∧ s.vars y = some o ∧ Owns s o l ∧
      i + vs.length = j ∧ j ≤ l.length ∧ (∀ k (hk : k < vs.length), l[i + k]? = some vs[k]) ∧
      bindSrc r s = (.ok (.inr (o.ptr, i)), s)) := by

  match r, hr with
  | .ext ws, hr => cases hr; exact ⟨rfl, .inl ⟨rfl, rfl⟩⟩
  | .range y i j, hr =>
    simp only [srcVal, Option.bind_eq_some_iff] at hr
    obtain ⟨l, hl, hi⟩ := hr
    obtain ⟨o, ho, hw⟩ := h.alive y l hl
    split at hi
    · rename_i hij
      cases hi
      have hlen : ((l.drop i).take (j - i)).length = j - i := by simp; omega
      refine ⟨?_, .inr ⟨y, i, j, l, o, rfl, hl, ho, hw, by omega, hij.2, ?_, ?_⟩⟩
      · rw [hlen]; simp only [Src.dist]; omega
      · intro k hk
        rw [List.getElem_take, List.getElem_drop, List.getElem?_eq_getElem (by omega)]
      · rw [bindSrc, bind_ok (getObj_eq ho)]; rfl
    · cases hi

theorem readSrc_ext {s : St V} {vs : List V} {k : Nat} (hk : k < vs.length) :
    readSrc (.inl vs) k s = (.ok vs[k], s) := by
  simp [readSrc, M.look, hk]

end Helper.Arr
