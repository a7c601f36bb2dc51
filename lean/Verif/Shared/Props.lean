import Verif.Shared.Model
set_option linter.unusedSectionVars false
/-!
# Properties C33 and C34: `SharedArray`

The specification: every variable belongs to a group, and every group has one list of values.
-/
namespace Helper.Shared

variable {V : Type}

structure Spec (V : Type) where
  /-- group of each variable, in the order of construction -/
  grp : List Nat
  /-- values of a group -/
  val : Nat → List V
  /-- next unused group -/
  next : Nat

def Spec.init : Spec V := ⟨[], fun _ => [], 0⟩

/-- A new variable in a new group. -/
def Spec.new (sp : Spec V) (vs : List V) : Spec V :=
  ⟨sp.grp ++ [sp.next], upd sp.val sp.next vs, sp.next + 1⟩

/-- Meaning of the operations other than destruction; variables and indices must exist, and there are
fewer than 2^64 variables. -/
inductive Means (dflt : V) (sp : Spec V) : Op V → Spec V → Prop
  | ctor {n} : sp.grp.length + 1 < 2 ^ 64 → Means dflt sp (.ctor n) (sp.new (List.replicate n dflt))
  | ctorFill {n v} : sp.grp.length + 1 < 2 ^ 64 → Means dflt sp (.ctorFill n v) (sp.new (List.replicate n v))
  | ctorList {vs} : sp.grp.length + 1 < 2 ^ 64 → Means dflt sp (.ctorList vs) (sp.new vs)
  | copy {y g} : sp.grp.length + 1 < 2 ^ 64 → sp.grp[y]? = some g →
      Means dflt sp (.copy y) { sp with grp := sp.grp ++ [g] }
  | assign {x y g} : x < sp.grp.length → sp.grp[y]? = some g →
      Means dflt sp (.assign x y) { sp with grp := sp.grp.set x g }
  | write {x i v g} : sp.grp[x]? = some g → i < (sp.val g).length →
      Means dflt sp (.write x i v) { sp with val := upd sp.val g ((sp.val g).set i v) }

inductive Hist (dflt : V) : Spec V → List (Op V) → Spec V → Prop
  | nil {sp} : Hist dflt sp [] sp
  | cons {sp sp' sp'' o os} : Means dflt sp o sp' → Hist dflt sp' os sp'' → Hist dflt sp (o :: os) sp''

/-- Memory represents groups; counters are numbers of owners. -/
structure Inv (s : St V) (sp : Spec V) : Prop where
  ptrs : s.vars.map Obj.ptr = sp.grp
  objs : ∀ o ∈ s.vars, o.cnt = o.ptr ∧ o.size = (sp.val o.ptr).length
  owned : ∀ g, 0 < sp.grp.count g → s.bufs g = some (sp.val g) ∧ s.cnts g = some (sp.grp.count g)
  free : ∀ g, sp.grp.count g = 0 → s.bufs g = none ∧ s.cnts g = none
  fresh : ∀ g, s.next ≤ g → sp.grp.count g = 0
  next : s.next = sp.next
  small : sp.grp.length < 2 ^ 64

theorem Inv.init : Inv (St.init : St V) Spec.init :=
  ⟨rfl, by simp [St.init], by simp [Spec.init], fun _ _ => ⟨rfl, rfl⟩, by simp [Spec.init], rfl, by simp [Spec.init]⟩

theorem Inv.var {s : St V} {sp : Spec V} (h : Inv s sp) {x g : Nat} (hx : sp.grp[x]? = some g) :
    ∃ o, s.vars[x]? = some o ∧ o.ptr = g ∧ o.cnt = g ∧ o.size = (sp.val g).length ∧ 0 < sp.grp.count g := by
  have hm : (s.vars.map Obj.ptr)[x]? = some g := by rw [h.ptrs]; exact hx
  rw [List.getElem?_map, Option.map_eq_some_iff] at hm
  obtain ⟨o, ho, hp⟩ := hm
  obtain ⟨h1, h2⟩ := h.objs o (List.mem_of_getElem? ho)
  subst hp
  exact ⟨o, ho, rfl, h1, h2, List.count_pos_iff.mpr (List.mem_of_getElem? hx)⟩

theorem Inv.new {s : St V} {sp : Spec V} (h : Inv s sp) (vs : List V) (hl : sp.grp.length + 1 < 2 ^ 64) :
    Inv (newArray vs s) (sp.new vs) := by
  have h0 := h.fresh s.next (Nat.le_refl _)
  have hnm : sp.next ∉ sp.grp := by rw [← h.next]; exact List.count_eq_zero.mp h0
  refine ⟨?_, ?_, ?_, ?_, ?_, ?_, ?_⟩
  · simp [newArray, Spec.new, h.ptrs, h.next]
  · intro o ho
    simp only [newArray, List.mem_append, List.mem_singleton] at ho
    rcases ho with ho | ho
    · obtain ⟨h1, h2⟩ := h.objs o ho
      refine ⟨h1, ?_⟩
      have : o.ptr ≠ sp.next := by
        intro he
        apply hnm
        rw [← he, ← h.ptrs]; exact List.mem_map_of_mem ho
      simp [Spec.new, upd, this, h2]
    · subst ho
      simp [Spec.new, upd, h.next]
  · intro g hg
    simp only [Spec.new, List.count_append, List.count_singleton] at hg ⊢
    by_cases hgn : g = sp.next
    · subst hgn
      simp [newArray, upd, h.next, List.count_eq_zero.mpr hnm]
    · have hne : (sp.next == g) = false := by simpa using fun h => hgn h.symm
      rw [hne] at hg ⊢
      obtain ⟨h1, h2⟩ := h.owned g (by simpa using hg)
      simp [newArray, upd, h.next, hgn, h1, h2]
  · intro g hg
    simp only [Spec.new, List.count_append, List.count_singleton] at hg
    have hgn : g ≠ sp.next := by intro he; subst he; simp at hg
    obtain ⟨h1, h2⟩ := h.free g (by omega)
    simp [newArray, upd, h.next, hgn, h1, h2]
  · intro g hg
    have hg : s.next + 1 ≤ g := hg
    have := h.fresh g (by omega)
    simp only [Spec.new, List.count_append, List.count_singleton, this]
    have := h.next
    have hne : (sp.next == g) = false := by simp; omega
    simp [hne]
  · simp [newArray, Spec.new, h.next]
  · simpa [Spec.new] using hl

theorem addCnt_inc {s : St V} {g k : Nat} (h : s.cnts g = some k) (hk : k + 1 < 2 ^ 64) :
    addCnt g 1 s = .ok { s with cnts := upd s.cnts g (some (k + 1)) } := by
  simp only [addCnt, h]; rw [Nat.mod_eq_of_lt hk]

theorem addCnt_dec {s : St V} {g k : Nat} (h : s.cnts g = some k) (hk : 0 < k) (hk' : k < 2 ^ 64) :
    addCnt g (2 ^ 64 - 1) s = .ok { s with cnts := upd s.cnts g (some (k - 1)) } := by
  simp only [addCnt, h]
  have : (k + (2 ^ 64 - 1)) % 2 ^ 64 = k - 1 := by omega
  rw [this]

theorem step {dflt : V} {s : St V} {sp sp' : Spec V} {o : Op V} (hm : Means dflt sp o sp') (h : Inv s sp) :
    ∃ s', op dflt o s = .ok s' ∧ Inv s' sp' := by
  cases hm with
  | @ctor n hl => exact ⟨_, rfl, h.new _ hl⟩
  | @ctorFill n v hl => exact ⟨_, rfl, h.new _ hl⟩
  | @ctorList vs hl => exact ⟨_, rfl, h.new _ hl⟩
  | @copy y g hl hy =>
    obtain ⟨o, ho, hp, hc, hs, hpos⟩ := h.var hy
    obtain ⟨hb, hcn⟩ := h.owned g hpos
    have hcount := List.count_le_length (a := g) (l := sp.grp)
    have hadd := addCnt_inc (s := ({ s with vars := s.vars ++ [o] } : St V)) (g := g) hcn (by omega)
    refine ⟨{ s with vars := s.vars ++ [o], cnts := upd s.cnts g (some (sp.grp.count g + 1)) },
      by simp only [op, ho, hc, hadd], ?_, ?_, ?_, ?_, ?_, h.next, by simpa using hl⟩
    · simp [h.ptrs, hp]
    · intro o' ho'
      simp only [List.mem_append, List.mem_singleton] at ho'
      rcases ho' with ho' | ho'
      · exact h.objs o' ho'
      · subst ho'; exact ⟨hc.trans hp.symm, by rw [hp]; exact hs⟩
    · intro g' hg'
      simp only [List.count_append, List.count_singleton] at hg' ⊢
      by_cases hgg : g' = g
      · subst hgg; simp [hb, upd]
      · have hne : (g == g') = false := by simpa using fun h => hgg h.symm
        simp only [hne] at hg' ⊢
        have := h.owned g' (by simpa using hg')
        simpa [upd, hgg] using this
    · intro g' hg'
      simp only [List.count_append, List.count_singleton] at hg'
      have hgg : g' ≠ g := by intro he; subst he; simp at hg'
      have := h.free g' (by omega)
      simpa [upd, hgg] using this
    · intro g' hg'
      have h0 := h.fresh g' hg'
      have hgg : g ≠ g' := by intro he; subst he; omega
      simp [List.count_append, List.count_singleton, h0, hgg]
  | @assign x y g hx hy =>
    obtain ⟨oy, hoy, hpy, hcy, hsy, hposy⟩ := h.var hy
    obtain ⟨ox, hox, hpx, hcx, hsx, hposx⟩ := h.var (List.getElem?_eq_getElem hx)
    generalize hgx : sp.grp[x] = gx at *
    have hcx' := List.count_le_length (a := gx) (l := sp.grp)
    have hsmall := h.small
    have hset : ∀ a, (sp.grp.set x g).count a = sp.grp.count a - (if gx = a then 1 else 0) + (if g = a then 1 else 0) := by
      intro a
      rw [List.count_set hx, hgx]
      simp only [beq_iff_eq]
    by_cases hne : gx = g
    · refine ⟨s, by simp [op, hox, hoy, hpx, hpy, hne], ?_⟩
      have : sp.grp.set x g = sp.grp := by
        have h1 := List.set_getElem_self (as := sp.grp) hx
        rw [hgx, hne] at h1; exact h1
      rw [this]; exact h
    · obtain ⟨hbx, hcnx⟩ := h.owned gx hposx
      obtain ⟨hby, hcny⟩ := h.owned g hposy
      have hdec := addCnt_dec (s := s) (g := gx) hcnx hposx (by omega)
      have hsum : sp.grp.count gx + sp.grp.count g ≤ sp.grp.length := by
        have : ∀ l : List Nat, l.count gx + l.count g ≤ l.length := by
          intro l
          induction l with
          | nil => simp
          | cons a t ih =>
            simp only [List.count_cons, List.length_cons, beq_iff_eq]
            by_cases h1 : a = gx
            · have h2 : a ≠ g := fun h => hne (h1.symm.trans h)
              rw [if_pos h1, if_neg h2]; omega
            · rw [if_neg h1]; split <;> omega
        exact this _
      -- the state after the release
      have hrel : ∃ s2 : St V, release ox { s with cnts := upd s.cnts gx (some (sp.grp.count gx - 1)) } = .ok s2 ∧
          s2.vars = s.vars ∧ s2.next = s.next ∧
          (∀ a, a ≠ gx → s2.bufs a = s.bufs a ∧ s2.cnts a = s.cnts a) ∧
          (sp.grp.count gx = 1 → s2.bufs gx = none ∧ s2.cnts gx = none) ∧
          (1 < sp.grp.count gx → s2.bufs gx = s.bufs gx ∧ s2.cnts gx = some (sp.grp.count gx - 1)) := by
        by_cases h1 : sp.grp.count gx = 1
        · refine ⟨{ s with cnts := upd (upd s.cnts gx (some (sp.grp.count gx - 1))) gx none, bufs := upd s.bufs gx none }, ?_, rfl, rfl, ?_, ?_, ?_⟩
          · simp [release, upd, h1, hbx, hcx, hpx]
          · intro a ha; simp [upd, ha]
          · intro _; simp [upd]
          · intro h2; omega
        · obtain ⟨m, hm⟩ : ∃ m, sp.grp.count gx - 1 = m + 1 := ⟨sp.grp.count gx - 2, by omega⟩
          refine ⟨{ s with cnts := upd s.cnts gx (some (sp.grp.count gx - 1)) }, ?_, rfl, rfl, ?_, ?_, ?_⟩
          · simp [release, upd, hm, hcx]
          · intro a ha; simp [upd, ha]
          · intro h2; exact absurd h2 h1
          · intro _; simp [upd]
      obtain ⟨s2, hs2, hv2, hn2, ho2, hf2, hk2⟩ := hrel
      have hcg2 : s2.cnts g = some (sp.grp.count g) := by rw [(ho2 g (fun h => hne h.symm)).2]; exact hcny
      have hinc := addCnt_inc (s := ({ s2 with vars := s2.vars.set x oy } : St V)) (g := g) hcg2 (by omega)
      refine ⟨{ s2 with vars := s2.vars.set x oy, cnts := upd s2.cnts g (some (sp.grp.count g + 1)) },
        ?_, ?_, ?_, ?_, ?_, ?_, ?_, ?_⟩
      rotate_left
      · show (s2.vars.set x oy).map Obj.ptr = _
        rw [List.map_set, hv2, h.ptrs, hpy]
      · intro o' ho'
        have ho' : o' ∈ s2.vars.set x oy := ho'
        rw [hv2] at ho'
        rcases List.mem_or_eq_of_mem_set ho' with ho' | ho'
        · exact h.objs o' ho'
        · subst ho'; exact ⟨hcy.trans hpy.symm, by rw [hpy]; exact hsy⟩
      · intro a ha
        show s2.bufs a = _ ∧ upd s2.cnts g _ a = _
        have hca := hset a
        by_cases hag : a = g
        · subst hag
          rw [if_neg hne, if_pos rfl] at hca
          have := ho2 a (fun h => hne h.symm)
          rw [this.1, hby]
          exact ⟨rfl, by simp [upd]; omega⟩
        · rw [if_neg (show ¬ g = a from fun h => hag h.symm)] at hca
          by_cases hax : a = gx
          · subst hax
            rw [if_pos rfl] at hca
            have ha : 0 < (sp.grp.set x g).count a := ha
            have := hk2 (by omega)
            rw [this.1, hbx]
            exact ⟨rfl, by simp [upd, hag, this.2]; omega⟩
          · rw [if_neg (show ¬ gx = a from fun h => hax h.symm)] at hca
            have ha : 0 < (sp.grp.set x g).count a := ha
            have h1 := ho2 a hax
            have h2 := h.owned a (by omega)
            rw [h1.1, h2.1]
            exact ⟨rfl, by simp [upd, hag, h1.2, h2.2]; omega⟩
      · intro a ha
        have ha : (sp.grp.set x g).count a = 0 := ha
        show s2.bufs a = _ ∧ upd s2.cnts g _ a = _
        have hca := hset a
        have hag : a ≠ g := by intro he; subst he; rw [if_pos rfl] at hca; omega
        rw [if_neg (show ¬ g = a from fun h => hag h.symm)] at hca
        by_cases hax : a = gx
        · subst hax
          rw [if_pos rfl] at hca
          have := hf2 (by omega)
          exact ⟨this.1, by simp [upd, hag, this.2]⟩
        · rw [if_neg (show ¬ gx = a from fun h => hax h.symm)] at hca
          have h1 := ho2 a hax
          have h2 := h.free a (by omega)
          exact ⟨by rw [h1.1, h2.1], by simp [upd, hag, h1.2, h2.2]⟩
      · intro a ha
        have ha : s2.next ≤ a := ha
        rw [hn2] at ha
        have h0 := h.fresh a ha
        show (sp.grp.set x g).count a = 0
        have hag : g ≠ a := by intro he; subst he; omega
        rw [hset a, h0, if_neg hag]; omega
      · show s2.next = sp.next
        rw [hn2]; exact h.next
      · simpa using h.small
      · simp only [op, hox, hoy, hpx, hpy, hcx, hcy]
        rw [if_pos hne, hdec]
        simp only [hs2]
        exact hinc
  | @write x i v g hx hi =>
    obtain ⟨o, ho, hp, hc, hs, hpos⟩ := h.var hx
    obtain ⟨hb, hcn⟩ := h.owned g hpos
    refine ⟨{ s with bufs := upd s.bufs g (some ((sp.val g).set i v)) }, by simp [op, ho, hp, hb, hi],
      h.ptrs, ?_, ?_, ?_, h.fresh, h.next, h.small⟩
    · intro o' ho'
      obtain ⟨h1, h2⟩ := h.objs o' ho'
      refine ⟨h1, ?_⟩
      by_cases hgg : o'.ptr = g
      · simp [upd, hgg, h2]
      · simp [upd, hgg, h2]
    · intro g' hg'
      have := h.owned g' hg'
      by_cases hgg : g' = g
      · subst hgg; simp [upd, this.2]
      · simpa [upd, hgg] using this
    · intro g' hg'
      have := h.free g' hg'
      have hgg : g' ≠ g := by intro he; subst he; have hg' : sp.grp.count g' = 0 := hg'; omega
      simpa [upd, hgg] using this

theorem run_ok {dflt : V} {sp sp' : Spec V} {os : List (Op V)} (hh : Hist dflt sp os sp') :
    ∀ {s : St V}, Inv s sp → ∃ s', run dflt os s = .ok s' ∧ Inv s' sp' := by
  induction hh with
  | nil => intro s h; exact ⟨s, rfl, h⟩
  | cons hm hh ih =>
    intro s h
    obtain ⟨s1, h1, h2⟩ := step hm h
    obtain ⟨s2, h3, h4⟩ := ih h2
    exact ⟨s2, by rw [run, h1]; exact h3, h4⟩

/-- C33: in every history of constructions, copies, assignments and writes, reading a variable gives
the value of its group, so copies see each other's writes; every counter equals the number of its
owners; and exactly the buffers (and counters) of groups with an owner are allocated. -/
theorem C33_shared (dflt : V) {os : List (Op V)} {sp : Spec V} (h : Hist dflt Spec.init os sp) :
    ∃ s, run dflt os St.init = .ok s ∧
      (∀ x g i, sp.grp[x]? = some g → read s x i = (match (sp.val g)[i]? with | some v => .ok v | none => .ub .outOfBounds)) ∧
      (∀ x g, sp.grp[x]? = some g → size s x = .ok (sp.val g).length) ∧
      (∀ (x : Nat) (o : Obj), s.vars[x]? = some o →
        s.cnts o.cnt = some (s.vars.countP (fun o' => o'.ptr == o.ptr)) ∧ s.bufs o.ptr ≠ none) ∧
      (∀ b, s.bufs b ≠ none ∨ s.cnts b ≠ none → ∃ o ∈ s.vars, o.ptr = b ∧ o.cnt = b) := by
  obtain ⟨s, h1, hi⟩ := run_ok h Inv.init
  refine ⟨s, h1, ?_, ?_, ?_, ?_⟩
  · intro x g i hx
    obtain ⟨o, ho, hp, _, _, hpos⟩ := hi.var hx
    simp only [read, ho, hp, (hi.owned g hpos).1]
    cases (sp.val g)[i]? <;> rfl
  · intro x g hx
    obtain ⟨o, ho, hp, _, hs, hpos⟩ := hi.var hx
    simp only [size, ho, hs]
  · intro x o ho
    have hm : o ∈ s.vars := List.mem_of_getElem? ho
    have hmg : o.ptr ∈ sp.grp := by rw [← hi.ptrs]; exact List.mem_map_of_mem hm
    obtain ⟨hb, hc⟩ := hi.owned o.ptr (List.count_pos_iff.mpr hmg)
    refine ⟨?_, by rw [hb]; simp⟩
    rw [(hi.objs o hm).1, hc]
    congr 1
    rw [← hi.ptrs, List.count, List.countP_map]
    rfl
  · intro b hb
    have : 0 < sp.grp.count b := by
      apply Classical.byContradiction
      intro h0
      obtain ⟨f1, f2⟩ := hi.free b (by omega)
      rcases hb with hb | hb
      · exact hb f1
      · exact hb f2
    have hmg := List.count_pos_iff.mp this
    rw [← hi.ptrs] at hmg
    obtain ⟨o, ho, hp⟩ := List.mem_map.mp hmg
    exact ⟨o, ho, hp, by rw [(hi.objs o ho).1, hp]⟩

theorem Hist.snoc {dflt : V} {sp0 sp1 sp2 : Spec V} {os : List (Op V)} {o : Op V} (hh : Hist dflt sp0 os sp1)
    (hm : Means dflt sp1 o sp2) : Hist dflt sp0 (os ++ [o]) sp2 := by
  induction hh with
  | nil => exact .cons hm .nil
  | cons h _ ih => exact .cons h (ih hm)

/-- C33: an assignment `x = y` frees a buffer exactly when it belongs to `x` alone and is not the
buffer of `y`; no other buffer is freed or allocated. -/
theorem C33_freed (dflt : V) {os : List (Op V)} {sp : Spec V} (h : Hist dflt Spec.init os sp) {x y g g' : Nat}
    (hx : sp.grp[x]? = some g) (hy : sp.grp[y]? = some g') {s s' : St V} (hs : run dflt os St.init = .ok s)
    (hs' : run dflt (os ++ [.assign x y]) St.init = .ok s') (b : Nat) :
    (s.bufs b ≠ none ∧ s'.bufs b = none ↔ b = g ∧ g ≠ g' ∧ ∀ z, sp.grp[z]? = some g → z = x) ∧
    (s.bufs b = none → s'.bufs b = none) := by
  obtain ⟨hxl, hxe⟩ := List.getElem?_eq_some_iff.mp hx
  obtain ⟨s1, h1, hi⟩ := run_ok h Inv.init
  rw [hs] at h1; cases h1
  obtain ⟨s2, h2, hi'⟩ := run_ok (h.snoc (.assign hxl hy)) Inv.init
  rw [hs'] at h2; cases h2
  have hset : ∀ a, (sp.grp.set x g').count a = sp.grp.count a - (if g = a then 1 else 0) + (if g' = a then 1 else 0) := by
    intro a
    rw [List.count_set hxl, hxe]
    simp only [beq_iff_eq]
  have halloc : s.bufs b ≠ none ↔ 0 < sp.grp.count b := by
    constructor
    · intro hb
      apply Classical.byContradiction
      intro h0; exact hb (hi.free b (by omega)).1
    · intro h0; rw [(hi.owned b h0).1]; simp
  have hfree : s'.bufs b = none ↔ (sp.grp.set x g').count b = 0 := by
    constructor
    · intro hb
      apply Classical.byContradiction
      intro h0
      have h3 := (hi'.owned b (Nat.pos_of_ne_zero h0)).1
      rw [hb] at h3; cases h3
    · intro h0; exact (hi'.free b h0).1
  have hone : sp.grp.count g = 1 ↔ ∀ z, sp.grp[z]? = some g → z = x := by
    have : ∀ (l : List Nat) (x : Nat), l[x]? = some g → (l.count g = 1 ↔ ∀ z, l[z]? = some g → z = x) := by
      intro l
      induction l with
      | nil => intro x hx; simp at hx
      | cons a t ih =>
        intro x hx
        rw [List.count_cons]
        cases x with
        | zero =>
          simp only [List.getElem?_cons_zero, Option.some.injEq] at hx
          subst hx
          simp only [beq_self_eq_true, if_true]
          constructor
          · intro hc z hz
            cases z with
            | zero => rfl
            | succ z =>
              simp only [List.getElem?_cons_succ] at hz
              have := List.count_pos_iff.mpr (List.mem_of_getElem? hz)
              omega
          · intro hall
            have : t.count a = 0 := by
              rw [List.count_eq_zero]
              intro hm
              obtain ⟨z, hz⟩ := List.getElem?_of_mem hm
              have := hall (z + 1) (by simpa using hz)
              omega
            omega
        | succ x =>
          simp only [List.getElem?_cons_succ] at hx
          have hpos := List.count_pos_iff.mpr (List.mem_of_getElem? hx)
          by_cases ha : a = g
          · subst ha
            simp only [beq_self_eq_true, if_true]
            constructor
            · intro hc; omega
            · intro hall
              have := hall 0 (by simp)
              omega
          · have hne : (a == g) = false := by simpa using ha
            simp only [hne]
            rw [show (if false = true then 1 else 0) = 0 from rfl, Nat.add_zero, ih x hx]
            constructor
            · intro hall z hz
              cases z with
              | zero => simp at hz; exact absurd hz ha
              | succ z => rw [hall z (by simpa using hz)]
            · intro hall z hz
              have := hall (z + 1) (by simpa using hz)
              omega
    exact this sp.grp x hx
  have hposg : 0 < sp.grp.count g := List.count_pos_iff.mpr (List.mem_of_getElem? hx)
  refine ⟨?_, ?_⟩
  · rw [halloc, hfree, hset b, ← hone]
    by_cases h1 : g' = b
    · subst h1
      rw [if_pos rfl]
      constructor
      · rintro ⟨_, h0⟩; omega
      · rintro ⟨h2, h3, _⟩; exact absurd h2.symm h3
    · rw [if_neg h1]
      by_cases h2 : g = b
      · subst h2
        rw [if_pos rfl]
        constructor
        · rintro ⟨h3, h4⟩; exact ⟨rfl, fun h => h1 h.symm, by omega⟩
        · rintro ⟨_, _, h3⟩; omega
      · rw [if_neg h2]
        constructor
        · rintro ⟨h3, h4⟩; omega
        · rintro ⟨h3, _⟩; exact absurd h3.symm h2
  · intro hb
    rw [hfree, hset b]
    have h0 : sp.grp.count b = 0 := by
      apply Classical.byContradiction
      intro h0; exact halloc.mpr (by omega) hb
    have hyb : g' ≠ b := by
      intro he
      have := List.count_pos_iff.mpr (List.mem_of_getElem? hy)
      rw [he] at this; omega
    rw [if_neg hyb]; omega

/-- Copies share, and an assignment frees the buffer that has lost its last owner. -/
example : (match run 0 [.ctorFill 3 7, .copy 0, .ctorList [1, 2], .write 1 0 5, .assign 2 0] (St.init : St Nat) with
    | .ok s => some (read s 0 0, read s 2 0, s.cnts 0, s.bufs 1)
    | _ => none) = some (.ok 5, .ok 5, some 3, none) := by rfl

example : ∃ sp, Hist 0 Spec.init [.ctorFill 3 7, .copy 0, .ctorList [1, 2], .write 1 0 5, .assign 2 0] sp ∧
    sp.grp = [0, 0, 0] ∧ sp.val 0 = [5, 7, 7] :=
  ⟨_, .cons (.ctorFill (by decide)) (.cons (.copy (g := 0) (by decide) rfl) (.cons (.ctorList (by decide))
    (.cons (.write (g := 0) rfl (by decide)) (.cons (.assign (g := 0) (by decide) rfl) .nil)))), rfl, rfl⟩

/-- C34 is false: the destructor of any live SharedArray reads memory in front of its counter; in every
state. -/
theorem C34_refuted (dflt : V) (s : St V) (x : Nat) (hx : x < s.vars.length) :
    op dflt (.destroy x) s = .ub .outOfBounds := by
  simp [op, hx]

/-- C34 is false: the shortest program. -/
theorem C34_refuted_example :
    run 0 [.ctor 1, .destroy 0] (St.init : St Nat) = .ub .outOfBounds := by rfl

end Helper.Shared
