import Verif.Handle.Lemmas
/-!
# Properties C54 to C57 and C72: Handle
-/
set_option linter.unusedSectionVars false
namespace Helper.Handle

variable {V : Type}

/-- `read` from the parts of the state it looks at. -/
theorem read_eq {s : St V} {x o : Nat} {cv : Nat × V} (h : s.hs[x]? = some (some (some o))) (ho : s.objs o = some cv) :
    read x s = .ok cv := by
  simp [read, obj_ok.2 h, ho]

theorem read_congr {s s' : St V} {x : Nat} (h : s'.hs[x]? = s.hs[x]?)
    (ho : ∀ o, s.hs[x]? = some (some (some o)) → s'.objs o = s.objs o) : read x s' = read x s := by
  have hget : s'.get x = s.get x := by simp only [St.get, h]
  have hobj : s'.obj x = s.obj x := by simp only [St.obj, hget]
  simp only [read, hobj]
  rcases obj_cases s x with ⟨_, hh, _⟩ | ⟨_, hh⟩ | ⟨o, hx, hh⟩
  · rw [hh]
  · rw [hh]
  · rw [hh]; simp only [ho o hx]

/-! ## C72 -/

/-- C72: in every reachable state the objects alive are exactly those owned by some handle or client
pointer: nothing is deleted too early and nothing is leaked. -/
theorem C72_lifetime (C : Classes) (ops : List (Op V)) (o : Nat) :
    (∃ cv, (run C ops St.init).2.objs o = some cv) ↔
    (∃ x : Nat, (run C ops St.init).2.hs[x]? = some (some (some o))) ∨
    ∃ p : Nat, (run C ops St.init).2.ps[p]? = some (some o) := by
  have hi := run_inv (C := C) ops (init_inv (V := V))
  exact ⟨fun ⟨cv, h⟩ => hi.owned o cv h, fun h => hi.alive o h⟩

/-- C72: reading through a live handle that has not been moved from is defined. -/
theorem C72_read (C : Classes) (ops : List (Op V)) (x o : Nat)
    (h : (run C ops St.init).2.hs[x]? = some (some (some o))) : ∃ cv, read x (run C ops St.init).2 = .ok cv := by
  have hi := run_inv (C := C) ops (init_inv (V := V))
  obtain ⟨cv, hc⟩ := hi.alive o (.inl ⟨x, h⟩)
  exact ⟨cv, read_eq h hc⟩

/-- C72: what reading gives in any state whatever: the value of the object held, and otherwise undefined behaviour of
the kind that applies. -/
theorem C72_read_any (s : St V) (x : Nat) (cv : Nat × V) :
    (read x s = .ok cv ↔ ∃ o, s.hs[x]? = some (some (some o)) ∧ s.objs o = some cv) ∧
    (read x s = .ub .dangling ↔ ∃ o, s.hs[x]? = some (some (some o)) ∧ s.objs o = none) ∧
    (read x s = .ub .nullDeref ↔ s.hs[x]? = some (some none)) ∧
    (read x s = .ub .notAlive ↔ ¬ ∃ p, s.hs[x]? = some (some p)) := by
  simp only [read, St.obj, St.get]
  rcases h : s.hs[x]? with _ | (_ | (_ | o)) <;> simp [Res.bind]
  rcases h' : s.objs o with _ | cv' <;> simp [h']

/-! ## C54 -/

/-- C54: in any state, however objects are shared, a change made through a non-const accessor of handle `x`
right after obtaining it is seen through `x`, and through no other handle, no client pointer and no
other reference to a live object. -/
theorem C54_change (C : Classes) (s : St V) (hi : Inv s) (x o : Nat) (hx : s.hs[x]? = some (some (some o))) (v : V) :
    ∃ s1 s2 c w, step C (.ref x none) s = (.ok (), s1) ∧ step C (.writeRef s.refs.length v) s1 = (.ok (), s2) ∧
      read x s = .ok (c, w) ∧ read x s1 = .ok (c, w) ∧ read x s2 = .ok (c, v) ∧
      (∀ y, y ≠ x → read y s2 = read y s) ∧ s2.ps = s.ps ∧
      (∀ (p q : Nat), s.ps[p]? = some (some q) → s2.objs q = s.objs q) ∧
      (∀ (y q : Nat), y ≠ x → s.hs[y]? = some (some (some q)) → s2.objs q = s.objs q) := by
  obtain ⟨⟨c, w⟩, hc⟩ := hi.alive o (.inl ⟨x, hx⟩)
  have hnew := uniqueSt_new (cv := (c, w)) hx
  have hdead : ∀ q, Owned s q → q ≠ s.next := by
    intro q hq e
    obtain ⟨cv, h⟩ := hi.alive q hq
    have := hi.lt q cv h; omega
  let s1 : St V := { uniqueSt x o (c, w) s with refs := (uniqueSt x o (c, w) s).refs ++ [(s.next, true)] }
  let s2 : St V := { s1 with objs := upd s1.objs s.next (some (c, v)) }
  have e1 : step C (.ref x none) s = (.ok (), s1) := by
    simp only [step, makeUnique_ok hx hc]; rfl
  have href : s1.refs[s.refs.length]? = some (s.next, true) := by
    show ((uniqueSt x o (c, w) s).refs ++ [(s.next, true)])[s.refs.length]? = _
    have : (uniqueSt x o (c, w) s).refs = s.refs := by simp [uniqueSt]
    rw [this]; simp
  have e2 : step C (.writeRef s.refs.length v) s1 = (.ok (), s2) := by
    simp only [step, href, writeObj]
    rw [show s1.objs s.next = some (c, w) from hnew]
  have hhs : ∀ y : Nat, s2.hs[y]? = if y = x then some (some (some s.next)) else s.hs[y]? := fun y => uniqueSt_hs hx y
  have hother : ∀ q, ((∃ y : Nat, y ≠ x ∧ s.hs[y]? = some (some (some q))) ∨ ∃ p : Nat, s.ps[p]? = some (some q)) →
      s2.objs q = s.objs q := by
    intro q hq
    have hne : q ≠ s.next := hdead q (by
      rcases hq with ⟨y, _, hy⟩ | hp
      · exact .inl ⟨y, hy⟩
      · exact .inr hp)
    show upd s1.objs s.next _ q = _
    rw [upd_other _ _ hne]
    exact uniqueSt_other hx hi hq
  refine ⟨s1, s2, c, w, e1, e2, read_eq hx hc, ?_, ?_, ?_, ?_, ?_, ?_⟩
  · exact read_eq (o := s.next) ((uniqueSt_hs hx x).trans (if_pos rfl)) hnew
  · exact read_eq (o := s.next) ((hhs x).trans (if_pos rfl)) (upd_same _ _ _)
  · intro y hy
    refine read_congr ((hhs y).trans (if_neg hy)) fun q hq => hother q (.inl ⟨y, hy, hq⟩)
  · show (uniqueSt x o (c, w) s).ps = s.ps
    simp [uniqueSt]
  · intro p q hp; exact hother q (.inr ⟨p, hp⟩)
  · intro y q hy hq; exact hother q (.inl ⟨y, hy, hq⟩)

/-- C54: the same for `managed_pointer()`, while the pointer and the handle share the object. -/
theorem C54_managed (C : Classes) (s : St V) (hi : Inv s) (x o : Nat) (hx : s.hs[x]? = some (some (some o))) (v : V) :
    ∃ s1 s2 c w, step C (.managed x none) s = (.ok (), s1) ∧ step C (.writePtr s.ps.length v) s1 = (.ok (), s2) ∧
      read x s = .ok (c, w) ∧ read x s2 = .ok (c, v) ∧
      (∀ y, y ≠ x → read y s2 = read y s) ∧
      (∀ (p q : Nat), s.ps[p]? = some (some q) → s2.objs q = s.objs q) := by
  obtain ⟨⟨c, w⟩, hc⟩ := hi.alive o (.inl ⟨x, hx⟩)
  have hnew := uniqueSt_new (cv := (c, w)) hx
  have hdead : ∀ q, Owned s q → q ≠ s.next := by
    intro q hq e
    obtain ⟨cv, h⟩ := hi.alive q hq
    have := hi.lt q cv h; omega
  let s1 : St V := { uniqueSt x o (c, w) s with ps := (uniqueSt x o (c, w) s).ps ++ [some s.next] }
  let s2 : St V := { s1 with objs := upd s1.objs s.next (some (c, v)) }
  have e1 : step C (.managed x none) s = (.ok (), s1) := by
    simp only [step, makeUnique_ok hx hc]; rfl
  have href : s1.ps[s.ps.length]? = some (some s.next) := by
    show ((uniqueSt x o (c, w) s).ps ++ [some s.next])[s.ps.length]? = _
    have : (uniqueSt x o (c, w) s).ps = s.ps := by simp [uniqueSt]
    rw [this]; simp
  have e2 : step C (.writePtr s.ps.length v) s1 = (.ok (), s2) := by
    simp only [step, href, writeObj]
    rw [show s1.objs s.next = some (c, w) from hnew]
  have hhs : ∀ y : Nat, s2.hs[y]? = if y = x then some (some (some s.next)) else s.hs[y]? := fun y => uniqueSt_hs hx y
  have hother : ∀ q, ((∃ y : Nat, y ≠ x ∧ s.hs[y]? = some (some (some q))) ∨ ∃ p : Nat, s.ps[p]? = some (some q)) →
      s2.objs q = s.objs q := by
    intro q hq
    have hne : q ≠ s.next := hdead q (by
      rcases hq with ⟨y, _, hy⟩ | hp
      · exact .inl ⟨y, hy⟩
      · exact .inr hp)
    show upd s1.objs s.next _ q = _
    rw [upd_other _ _ hne]
    exact uniqueSt_other hx hi hq
  refine ⟨s1, s2, c, w, e1, e2, read_eq hx hc, ?_, ?_, ?_⟩
  · exact read_eq (o := s.next) ((hhs x).trans (if_pos rfl)) (upd_same _ _ _)
  · intro y hy
    refine read_congr ((hhs y).trans (if_neg hy)) fun q hq => hother q (.inl ⟨y, hy, hq⟩)
  · intro p q hp; exact hother q (.inr ⟨p, hp⟩)

/-- C54: a throwing `clone()` leaves everything as it was. -/
theorem C54_throw (C : Classes) (s : St V) (x o : Nat) (hx : s.hs[x]? = some (some (some o))) (e : Exn) :
    step C (.ref x (some e)) s = (.exn e, s) ∧ step C (.managed x (some e)) s = (.exn e, s) := by
  simp [step, makeUnique_fail hx]

/-! ### Histories against values

The spec has no objects and no sharing: each handle simply contains a value. -/

/-- `none`: destroyed; `some none`: empty (null or moved from). -/
abbrev Val (V : Type) := Option (Option (Nat × V))

inductive HOp (V : Type) where
  | create (c : Nat) (v : V) | null | copy (y : Nat) | move (y : Nat) | assign (x y : Nat)
  | moveAssign (x y : Nat) | destroy (x : Nat)
  /-- obtain a reference by a non-const accessor and change the object through it -/
  | change (x : Nat) (v : V)
  /-- accessors without a change; `fail`: `clone()` throws -/
  | ref (x : Nat) (fail : Option Exn) | cref (x : Nat) | managed (x : Nat) (fail : Option Exn) | cmanaged (x : Nat)
  | resetPtr (p : Nat)

namespace Spec

def get (m : List (Val V)) (x : Nat) : Res (Option (Nat × V)) :=
  match m[x]? with
  | some (some w) => .ok w
  | _ => .ub .notAlive

/-- Handles as plain values; `n` is the number of client pointers. -/
def step : HOp V → List (Val V) × Nat → Res Unit × (List (Val V) × Nat)
  | .create c v, (m, n) => (.ok (), (m ++ [some (some (c, v))], n))
  | .null, (m, n) => (.ok (), (m ++ [some none], n))
  | .copy y, (m, n) => match get m y with
    | .ok w => (.ok (), (m ++ [some w], n))
    | _ => (.ub .notAlive, (m, n))
  | .move y, (m, n) => match get m y with
    | .ok w => (.ok (), (m.set y (some none) ++ [some w], n))
    | _ => (.ub .notAlive, (m, n))
  | .assign x y, (m, n) => match get m x, get m y with
    | .ok _, .ok w => (.ok (), (m.set x (some w), n))
    | _, _ => (.ub .notAlive, (m, n))
  | .moveAssign x y, (m, n) => match get m x, get m y with
    | .ok _, .ok w => (.ok (), (if x = y then m else (m.set x (some w)).set y (some none), n))
    | _, _ => (.ub .notAlive, (m, n))
  | .destroy x, (m, n) => match get m x with
    | .ok _ => (.ok (), (m.set x none, n))
    | _ => (.ub .notAlive, (m, n))
  | .change x v, (m, n) => match get m x with
    | .ok (some (c, _)) => (.ok (), (m.set x (some (some (c, v))), n))
    | .ok none => (.ub .nullDeref, (m, n))
    | _ => (.ub .notAlive, (m, n))
  | .ref x fail, (m, n) => match get m x with
    | .ok (some _) => ((match fail with | none => .ok () | some e => .exn e), (m, n))
    | .ok none => (.ub .nullDeref, (m, n))
    | _ => (.ub .notAlive, (m, n))
  | .cref x, (m, n) => match get m x with
    | .ok (some _) => (.ok (), (m, n))
    | .ok none => (.ub .nullDeref, (m, n))
    | _ => (.ub .notAlive, (m, n))
  | .managed x fail, (m, n) => match get m x with
    | .ok (some _) => (match fail with | none => (.ok (), (m, n + 1)) | some e => (.exn e, (m, n)))
    | .ok none => (.ub .nullDeref, (m, n))
    | _ => (.ub .notAlive, (m, n))
  | .cmanaged x, (m, n) => match get m x with
    | .ok _ => (.ok (), (m, n + 1))
    | _ => (.ub .notAlive, (m, n))
  | .resetPtr p, (m, n) => if p < n then (.ok (), (m, n)) else (.ub .notAlive, (m, n))

def run : List (HOp V) → List (Val V) × Nat → List (Res Unit) × (List (Val V) × Nat)
  | [], m => ([], m)
  | o :: os, m =>
    match step o m with
    | (.ub u, m') => ([.ub u], m')
    | (r, m') => let (rs, m'') := run os m'; (r :: rs, m'')

end Spec

/-- The operation of the model. -/
def exec (C : Classes) : HOp V → St V → Res Unit × St V
  | .create c v, s => step C (.create c v) s
  | .null, s => step C .null s
  | .copy y, s => step C (.copy y) s
  | .move y, s => step C (.move y) s
  | .assign x y, s => step C (.assign x y) s
  | .moveAssign x y, s => step C (.moveAssign x y) s
  | .destroy x, s => step C (.destroy x) s
  | .change x v, s =>
    match step C (.ref x none) s with
    | (.ok _, s') => step C (.writeRef (s'.refs.length - 1) v) s'
    | r => r
  | .ref x f, s => step C (.ref x f) s
  | .cref x, s => step C (.cref x) s
  | .managed x f, s => step C (.managed x f) s
  | .cmanaged x, s => step C (.cmanaged x) s
  | .resetPtr p, s => step C (.resetPtr p) s

def execAll (C : Classes) : List (HOp V) → St V → List (Res Unit) × St V
  | [], s => ([], s)
  | o :: os, s =>
    match exec C o s with
    | (.ub u, s') => ([.ub u], s')
    | (r, s') => let (rs, s'') := execAll C os s'; (r :: rs, s'')

/-- The spec state `m` describes what is seen through the handles of `s`. -/
def Agree (s : St V) (m : List (Val V) × Nat) : Prop :=
  m.1.length = s.hs.length ∧ m.2 = s.ps.length ∧
  ∀ x : Nat, match s.hs[x]? with
    | none => m.1[x]? = none
    | some none => m.1[x]? = some none
    | some (some none) => m.1[x]? = some (some none)
    | some (some (some o)) => ∃ cv, s.objs o = some cv ∧ m.1[x]? = some (some (some cv))

theorem agree_get {s : St V} {m : List (Val V) × Nat} (h : Agree s m) (x : Nat) :
    (s.get x = .ub .notAlive ∧ s.obj x = .ub .notAlive ∧ Spec.get m.1 x = .ub .notAlive) ∨
    (s.hs[x]? = some (some none) ∧ s.get x = .ok none ∧ s.obj x = .ub .nullDeref ∧ Spec.get m.1 x = .ok none) ∨
    ∃ o cv, s.hs[x]? = some (some (some o)) ∧ s.get x = .ok (some o) ∧ s.obj x = .ok o ∧ s.objs o = some cv ∧
      Spec.get m.1 x = .ok (some cv) := by
  have hx := h.2.2 x
  cases hs : s.hs[x]? with
  | none =>
    rw [hs] at hx
    have hg : s.get x = .ub .notAlive := by simp [St.get, hs]
    exact .inl ⟨hg, obj_gone hg, by simp only at hx; simp [Spec.get, hx]⟩
  | some a =>
    cases a with
    | none =>
      rw [hs] at hx
      have hg : s.get x = .ub .notAlive := by simp [St.get, hs]
      exact .inl ⟨hg, obj_gone hg, by simp only at hx; simp [Spec.get, hx]⟩
    | some b =>
      cases b with
      | none =>
        rw [hs] at hx
        exact .inr (.inl ⟨rfl, get_ok.2 hs, obj_null hs, by simp only at hx; simp [Spec.get, hx]⟩)
      | some o =>
        rw [hs] at hx
        obtain ⟨cv, hc, hm⟩ := hx
        exact .inr (.inr ⟨o, cv, rfl, get_ok.2 hs, obj_ok.2 hs, hc, by simp [Spec.get, hm]⟩)

/-- A pointer and the value it stands for. -/
def Rel (s : St V) (p : Option Nat) (w : Option (Nat × V)) : Prop :=
  match p with
  | none => w = none
  | some o => ∃ cv, s.objs o = some cv ∧ w = some cv

theorem agree_get' {s : St V} {m : List (Val V) × Nat} (h : Agree s m) (x : Nat) :
    (s.get x = .ub .notAlive ∧ Spec.get m.1 x = .ub .notAlive) ∨
    ∃ p w, s.hs[x]? = some (some p) ∧ s.get x = .ok p ∧ Spec.get m.1 x = .ok w ∧ Rel s p w := by
  rcases agree_get h x with ⟨a, _, b⟩ | ⟨a, b, _, c⟩ | ⟨o, cv, a, b, _, c, d⟩
  · exact .inl ⟨a, b⟩
  · exact .inr ⟨none, none, a, b, c, rfl⟩
  · exact .inr ⟨some o, some cv, a, b, d, cv, c, rfl⟩

theorem agree_iff (s : St V) (m : List (Val V)) (n : Nat) :
    Agree s (m, n) ↔ m.length = s.hs.length ∧ n = s.ps.length ∧ ∀ x : Nat, match s.hs[x]?, m[x]? with
      | none, none => True
      | some none, some none => True
      | some (some p), some (some w) => Rel s p w
      | _, _ => False := by
  unfold Agree
  refine and_congr_right fun _ => and_congr_right fun _ => forall_congr' fun x => ?_
  cases h : s.hs[x]? with
  | none => cases hm : m[x]? <;> simp
  | some a =>
    cases a with
    | none =>
      cases hm : m[x]? with
      | none => simp
      | some b => cases b <;> simp
    | some p =>
      cases p with
      | none =>
        cases hm : m[x]? with
        | none => simp
        | some b =>
          cases b with
          | none => simp
          | some w => simp [Rel]
      | some o =>
        cases hm : m[x]? with
        | none => simp
        | some b =>
          cases b with
          | none => simp
          | some w => simp [Rel]

/-- Setting up agreement after an operation, from the parts of the new state. -/
theorem agree_mk {s : St V} {m : List (Val V)} {n : Nat} (h1 : m.length = s.hs.length) (h2 : n = s.ps.length)
    (h3 : ∀ (x : Nat) (a : Option (Option Nat)), s.hs[x]? = some a → ∃ b, m[x]? = some b ∧
      ((a = none ∧ b = none) ∨ ∃ p w, a = some p ∧ b = some w ∧ Rel s p w)) : Agree s (m, n) := by
  rw [agree_iff]
  refine ⟨h1, h2, fun x => ?_⟩
  cases h : s.hs[x]? with
  | none =>
    have : m[x]? = none := by
      rw [List.getElem?_eq_none_iff] at h ⊢; omega
    simp [this]
  | some a =>
    obtain ⟨b, hb, hc⟩ := h3 x a h
    rw [hb]
    rcases hc with ⟨rfl, rfl⟩ | ⟨p, w, rfl, rfl, hr⟩
    · trivial
    · exact hr

theorem agree_at {s : St V} {m : List (Val V) × Nat} (h : Agree s m) {x : Nat} {a : Option (Option Nat)}
    (hx : s.hs[x]? = some a) : ∃ b, m.1[x]? = some b ∧ ((a = none ∧ b = none) ∨ ∃ p w, a = some p ∧ b = some w ∧ Rel s p w) := by
  have := h.2.2 x
  rw [hx] at this
  cases a with
  | none => exact ⟨none, this, .inl ⟨rfl, rfl⟩⟩
  | some p =>
    cases p with
    | none => exact ⟨some none, this, .inr ⟨none, none, rfl, rfl, rfl⟩⟩
    | some o =>
      obtain ⟨cv, hc, hm⟩ := this
      exact ⟨some (some cv), hm, .inr ⟨some o, some cv, rfl, rfl, cv, hc, rfl⟩⟩

theorem rel_mono {s s' : St V} {p : Option Nat} {w : Option (Nat × V)} (h : ∀ o, p = some o → s'.objs o = s.objs o)
    (hr : Rel s p w) : Rel s' p w := by
  cases p with
  | none => exact hr
  | some o =>
    obtain ⟨cv, hc, hw⟩ := hr
    exact ⟨cv, by rw [h o rfl]; exact hc, hw⟩

/-- The operations that only add a handle. -/
theorem agree_snoc {s : St V} {m : List (Val V)} {n : Nat} (h : Agree s (m, n)) {p : Option Nat} {w : Option (Nat × V)}
    (hr : Rel s p w) : Agree { s with hs := s.hs ++ [some p] } (m ++ [some w], n) := by
  have hl : m.length = s.hs.length := h.1
  refine agree_mk (by simp [hl]) h.2.1 ?_
  intro x a ha
  simp only [getElem?_snoc, hl] at ha ⊢
  split at ha
  · rename_i e
    injection ha with ha; subst ha
    exact ⟨some w, by rw [if_pos e], .inr ⟨p, w, rfl, rfl, hr⟩⟩
  · rename_i e
    obtain ⟨b, hb, hc⟩ := agree_at h ha
    exact ⟨b, by rw [if_neg e]; exact hb, hc⟩

theorem spec_lt {m : List (Val V)} {x : Nat} {w : Option (Nat × V)} (h : Spec.get m x = .ok w) : x < m.length := by
  unfold Spec.get at h
  cases hm : m[x]? with
  | none => simp [hm] at h
  | some b => exact (List.getElem?_eq_some_iff.1 hm).1

/-- C54: one operation of a history. -/
theorem exec_agree (C : Classes) (op : HOp V) (s : St V) (m : List (Val V) × Nat) (hi : Inv s) (h : Agree s m) :
    (exec C op s).1 = (Spec.step op m).1 ∧ Agree (exec C op s).2 (Spec.step op m).2 ∧ Inv (exec C op s).2 := by
  have hlen : m.1.length = s.hs.length := h.1
  obtain ⟨m, n⟩ := m
  -- dropping an owner
  have hdrop : ∀ {hs' : List (Option (Option Nat))} {m' : List (Val V)} {p : Option Nat}, m'.length = hs'.length →
      (∀ (x : Nat) (a : Option (Option Nat)), hs'[x]? = some a → ∃ b, m'[x]? = some b ∧
        ((a = none ∧ b = none) ∨ ∃ p w, a = some p ∧ b = some w ∧ Rel s p w)) →
      Agree (St.drop { s with hs := hs' } p) (m', n) := by
    intro hs' m' p h1 h2
    refine agree_mk (by rw [drop_hs]; exact h1) (by rw [drop_ps]; exact h.2.1) ?_
    intro x a ha
    rw [drop_hs] at ha
    obtain ⟨b, hb, hc⟩ := h2 x a ha
    refine ⟨b, hb, ?_⟩
    rcases hc with hc | ⟨q, w, rfl, rfl, hr⟩
    · exact .inl hc
    · refine .inr ⟨q, w, rfl, rfl, rel_mono (s := s) ?_ hr⟩
      intro o ho; subst ho
      exact drop_objs_owned (s := { s with hs := hs' }) (.inl ⟨x, ha⟩)
  have hset : ∀ {x : Nat} {p q : Option Nat} {w : Option (Nat × V)} {a : Option (Option Nat)} {b : Val V},
      s.hs[x]? = some (some p) → ((a = none ∧ b = none) ∨ ∃ p w, a = some p ∧ b = some w ∧ Rel s p w) →
      ∀ (y : Nat) (a' : Option (Option Nat)), (s.hs.set x a)[y]? = some a' → ∃ b', (m.set x b)[y]? = some b' ∧
        ((a' = none ∧ b' = none) ∨ ∃ p w, a' = some p ∧ b' = some w ∧ Rel s p w) := by
    intro x p q w a b hx hab y a' ha'
    have hl := lt_of_hs hx
    rw [getElem?_set_lt hl] at ha'
    rw [getElem?_set_lt (by rw [hlen]; exact hl)]
    split at ha'
    · rename_i e
      injection ha' with ha'; subst ha'
      exact ⟨b, by rw [if_pos e], hab⟩
    · rename_i e
      obtain ⟨b', hb, hc⟩ := agree_at h ha'
      exact ⟨b', by rw [if_neg e]; exact hb, hc⟩
  -- the accessors that clone
  have hunique : ∀ {x o : Nat} {cv : Nat × V}, s.hs[x]? = some (some (some o)) → s.objs o = some cv →
      Agree (uniqueSt x o cv s) (m, n) := by
    intro x o cv hx hc
    refine agree_mk (by simp [uniqueSt]; exact hlen) (by simp [uniqueSt]; exact h.2.1) ?_
    intro y a ha
    rw [uniqueSt_hs hx] at ha
    split at ha
    · rename_i e; subst e
      injection ha with ha; subst ha
      obtain ⟨b, hb, hc'⟩ := agree_at h hx
      rcases hc' with ⟨e, _⟩ | ⟨p, w, e1, rfl, hr⟩
      · cases e
      · cases e1
        obtain ⟨cv', hcv, rfl⟩ := hr
        rw [hc] at hcv; cases hcv
        exact ⟨_, hb, .inr ⟨_, _, rfl, rfl, cv, uniqueSt_new hx, rfl⟩⟩
    · rename_i e
      obtain ⟨b, hb, hc'⟩ := agree_at h ha
      refine ⟨b, hb, ?_⟩
      rcases hc' with hc' | ⟨p, w, rfl, rfl, hr⟩
      · exact .inl hc'
      · refine .inr ⟨p, w, rfl, rfl, rel_mono (s := s) ?_ hr⟩
        intro q hq; subst hq
        exact uniqueSt_other hx hi (.inl ⟨y, e, ha⟩)
  cases op with
  | create c v =>
    refine ⟨rfl, ?_, step_inv hi _⟩
    refine agree_mk (by simp [exec, step, create]; exact hlen) h.2.1 ?_
    intro x a ha
    simp only [exec, step, create, getElem?_snoc] at ha
    show ∃ b, (m ++ [some (some (c, v))])[x]? = some b ∧ _
    simp only [getElem?_snoc, show m.length = s.hs.length from hlen]
    split at ha
    · rename_i e
      injection ha with ha; subst ha
      exact ⟨_, if_pos e, .inr ⟨_, _, rfl, rfl, (c, v), upd_same _ _ _, rfl⟩⟩
    · rename_i e
      obtain ⟨b, hb, hc⟩ := agree_at h ha
      refine ⟨b, by rw [if_neg e]; exact hb, ?_⟩
      rcases hc with hc | ⟨p, w, rfl, rfl, hr⟩
      · exact .inl hc
      · refine .inr ⟨p, w, rfl, rfl, rel_mono (s := s) ?_ hr⟩
        intro o ho; subst ho
        obtain ⟨cv, hcv, _⟩ := hr
        have := hi.lt o cv hcv
        exact upd_other _ _ (by omega)
  | null => exact ⟨rfl, agree_snoc h (p := none) (w := none) rfl, step_inv hi _⟩
  | copy y =>
    refine ⟨?_, ?_, step_inv hi _⟩
    · rcases agree_get' h y with ⟨a, b⟩ | ⟨p, w, hp, a, b, hr⟩
      · simp only [exec, step, a, Spec.step, b]
      · simp only [exec, step, a, Spec.step, b]
    · rcases agree_get' h y with ⟨a, b⟩ | ⟨p, w, hp, a, b, hr⟩
      · simp only [exec, step, a, Spec.step, b]; exact h
      · simp only [exec, step, a, Spec.step, b]; exact agree_snoc h hr
  | move y =>
    refine ⟨?_, ?_, step_inv hi _⟩
    · rcases agree_get' h y with ⟨a, b⟩ | ⟨p, w, hp, a, b, hr⟩
      · simp only [exec, step, a, Spec.step, b]
      · simp only [exec, step, a, Spec.step, b]
    · rcases agree_get' h y with ⟨a, b⟩ | ⟨p, w, hp, a, b, hr⟩
      · simp only [exec, step, a, Spec.step, b]; exact h
      · simp only [exec, step, a, Spec.step, b]
        have h' : Agree { s with hs := s.hs.set y (some none) } (m.set y (some none), n) :=
          agree_mk (by simp; exact hlen) h.2.1 (hset (p := p) (q := none) (w := none) hp (.inr ⟨none, none, rfl, rfl, rfl⟩))
        exact agree_snoc h' (rel_mono (s := s) (fun _ _ => rfl) hr)
  | assign x y =>
    refine ⟨?_, ?_, step_inv hi _⟩
    · rcases agree_get' h x with ⟨a, b⟩ | ⟨p, w, hp, a, b, hr⟩ <;>
      rcases agree_get' h y with ⟨a', b'⟩ | ⟨p', w', hp', a', b', hr'⟩ <;>
      simp only [exec, step, a, Spec.step, b, a', b']
    · rcases agree_get' h x with ⟨a, b⟩ | ⟨p, w, hp, a, b, hr⟩ <;>
      rcases agree_get' h y with ⟨a', b'⟩ | ⟨p', w', hp', a', b', hr'⟩ <;>
      simp only [exec, step, a, Spec.step, b, a', b']
      · exact h
      · exact h
      · exact h
      · exact hdrop (by simp; exact hlen) (hset (q := none) (w := none) hp (.inr ⟨p', w', rfl, rfl, hr'⟩))
  | moveAssign x y =>
    refine ⟨?_, ?_, step_inv hi _⟩
    · rcases agree_get' h x with ⟨a, b⟩ | ⟨p, w, hp, a, b, hr⟩ <;>
      rcases agree_get' h y with ⟨a', b'⟩ | ⟨p', w', hp', a', b', hr'⟩ <;>
      simp only [exec, step, a, Spec.step, b, a', b']
      split <;> rfl
    · rcases agree_get' h x with ⟨a, b⟩ | ⟨p, w, hp, a, b, hr⟩ <;>
      rcases agree_get' h y with ⟨a', b'⟩ | ⟨p', w', hp', a', b', hr'⟩ <;>
      simp only [exec, step, a, Spec.step, b, a', b']
      · exact h
      · exact h
      · exact h
      · by_cases e : x = y
        · simp only [if_pos e]; exact h
        · simp only [if_neg e]
          have h1 := hset (q := none) (w := none) hp (.inr ⟨p', w', rfl, rfl, hr'⟩)
          have hly : y < (s.hs.set x (some p')).length := by rw [List.length_set]; exact lt_of_hs hp'
          have hlym : y < (m.set x (some w')).length := by rw [List.length_set, hlen]; exact lt_of_hs hp'
          refine hdrop (by simp; exact hlen) ?_
          intro u a'' ha
          rw [getElem?_set_lt hly] at ha
          rw [getElem?_set_lt hlym]
          split at ha
          · rename_i eu
            injection ha with ha; subst ha
            exact ⟨_, if_pos eu, .inr ⟨none, none, rfl, rfl, rfl⟩⟩
          · rename_i eu
            obtain ⟨b'', hb'', hc⟩ := h1 u a'' ha
            exact ⟨b'', by rw [if_neg eu]; exact hb'', hc⟩
  | destroy x =>
    refine ⟨?_, ?_, step_inv hi _⟩
    · rcases agree_get' h x with ⟨a, b⟩ | ⟨p, w, hp, a, b, hr⟩ <;> simp only [exec, step, a, Spec.step, b]
    · rcases agree_get' h x with ⟨a, b⟩ | ⟨p, w, hp, a, b, hr⟩
      · simp only [exec, step, a, Spec.step, b]; exact h
      · simp only [exec, step, a, Spec.step, b]
        exact hdrop (by simp; exact hlen) (hset (q := none) (w := none) hp (.inl ⟨rfl, rfl⟩))
  | change x v =>
    rcases agree_get h x with ⟨a, b, c⟩ | ⟨a, _, b, c⟩ | ⟨o, cv, hx, _, b, hc, d⟩
    · simp only [exec, step, makeUnique, b, Spec.step, c]; exact ⟨trivial, h, hi⟩
    · simp only [exec, step, makeUnique, b, Spec.step, c]; exact ⟨trivial, h, hi⟩
    · obtain ⟨c, w⟩ := cv
      have hu := hunique hx hc
      have hnew := uniqueSt_new (cv := (c, w)) hx
      have hlr : (uniqueSt x o (c, w) s).refs = s.refs := by simp [uniqueSt]
      have e1 : exec C (.change x v) s = (.ok (),
          { uniqueSt x o (c, w) s with
            refs := s.refs ++ [(s.next, true)], objs := upd (uniqueSt x o (c, w) s).objs s.next (some (c, v)) }) := by
        simp only [exec, step, makeUnique_ok hx hc, hlr, writeObj]
        rw [show (s.refs ++ [(s.next, true)])[(s.refs ++ [(s.next, true)]).length - 1]? = some (s.next, true) from by simp]
        simp only [hnew]
      refine ⟨by rw [e1]; simp only [Spec.step, d], ?_, ?_⟩
      · rw [e1]
        simp only [Spec.step, d]
        refine agree_mk (by simp [uniqueSt]; exact hlen) (by simp [uniqueSt]; exact h.2.1) ?_
        intro y a ha
        simp only [uniqueSt_hs hx] at ha
        rw [getElem?_set_lt (by rw [hlen]; exact lt_of_hs hx)]
        split at ha
        · rename_i e
          injection ha with ha; subst ha
          exact ⟨_, if_pos e, .inr ⟨_, _, rfl, rfl, (c, v), upd_same _ _ _, rfl⟩⟩
        · rename_i e
          obtain ⟨b', hb', hc'⟩ := agree_at h ha
          refine ⟨b', by rw [if_neg e]; exact hb', ?_⟩
          rcases hc' with hc' | ⟨p, w', rfl, rfl, hr⟩
          · exact .inl hc'
          · refine .inr ⟨p, w', rfl, rfl, rel_mono (s := s) ?_ hr⟩
            intro q hq; subst hq
            obtain ⟨cv', hcv', _⟩ := hr
            have := hi.lt q cv' hcv'
            show upd _ s.next _ q = _
            rw [upd_other _ _ (by omega)]
            exact uniqueSt_other hx hi (.inl ⟨y, e, ha⟩)
      · have i1 := step_inv (C := C) hi (.ref x none)
        have i2 := step_inv (C := C) i1 (.writeRef ((step C (.ref x none) s).2.refs.length - 1) v)
        have e2 : (step C (.ref x none) s) = (.ok (), { uniqueSt x o (c, w) s with refs := s.refs ++ [(s.next, true)] }) := by
          simp only [step, makeUnique_ok hx hc, hlr]
        simp only [exec, e2]
        rw [e2] at i2
        exact i2
  | ref x fail =>
    refine ⟨?_, ?_, step_inv hi _⟩
    · rcases agree_get h x with ⟨a, b, c⟩ | ⟨a, _, b, c⟩ | ⟨o, cv, hx, _, b, hc, d⟩
      · simp only [exec, step, makeUnique, b, Spec.step, c]
      · simp only [exec, step, makeUnique, b, Spec.step, c]
      · cases fail with
        | none => simp only [exec, step, makeUnique_ok hx hc, Spec.step, d]
        | some e => simp only [exec, step, makeUnique_fail hx, Spec.step, d]
    · rcases agree_get h x with ⟨a, b, c⟩ | ⟨a, _, b, c⟩ | ⟨o, cv, hx, _, b, hc, d⟩
      · simp only [exec, step, makeUnique, b, Spec.step, c]; exact h
      · simp only [exec, step, makeUnique, b, Spec.step, c]; exact h
      · cases fail with
        | none => simp only [exec, step, makeUnique_ok hx hc, Spec.step, d]; exact hunique hx hc
        | some e => simp only [exec, step, makeUnique_fail hx, Spec.step, d]; exact h
  | cref x =>
    refine ⟨?_, ?_, step_inv hi _⟩
    · rcases agree_get h x with ⟨a, b, c⟩ | ⟨a, _, b, c⟩ | ⟨o, cv, hx, _, b, hc, d⟩
      · simp only [exec, step, b, Spec.step, c]
      · simp only [exec, step, b, Spec.step, c]
      · simp only [exec, step, b, Spec.step, d]
    · rcases agree_get h x with ⟨a, b, c⟩ | ⟨a, _, b, c⟩ | ⟨o, cv, hx, _, b, hc, d⟩
      · simp only [exec, step, b, Spec.step, c]; exact h
      · simp only [exec, step, b, Spec.step, c]; exact h
      · simp only [exec, step, b, Spec.step, d]; exact h
  | managed x fail =>
    refine ⟨?_, ?_, step_inv hi _⟩
    · rcases agree_get h x with ⟨a, b, c⟩ | ⟨a, _, b, c⟩ | ⟨o, cv, hx, _, b, hc, d⟩
      · simp only [exec, step, makeUnique, b, Spec.step, c]
      · simp only [exec, step, makeUnique, b, Spec.step, c]
      · cases fail with
        | none => simp only [exec, step, makeUnique_ok hx hc, Spec.step, d]
        | some e => simp only [exec, step, makeUnique_fail hx, Spec.step, d]
    · rcases agree_get h x with ⟨a, b, c⟩ | ⟨a, _, b, c⟩ | ⟨o, cv, hx, _, b, hc, d⟩
      · simp only [exec, step, makeUnique, b, Spec.step, c]; exact h
      · simp only [exec, step, makeUnique, b, Spec.step, c]; exact h
      · cases fail with
        | none =>
          simp only [exec, step, makeUnique_ok hx hc, Spec.step, d]
          have hu := hunique hx hc
          exact ⟨hu.1, by simp; exact hu.2.1, hu.2.2⟩
        | some e => simp only [exec, step, makeUnique_fail hx, Spec.step, d]; exact h
  | cmanaged x =>
    refine ⟨?_, ?_, step_inv hi _⟩
    · rcases agree_get' h x with ⟨a, b⟩ | ⟨p, w, hp, a, b, hr⟩ <;> simp only [exec, step, a, Spec.step, b]
    · rcases agree_get' h x with ⟨a, b⟩ | ⟨p, w, hp, a, b, hr⟩
      · simp only [exec, step, a, Spec.step, b]; exact h
      · simp only [exec, step, a, Spec.step, b]
        exact ⟨h.1, by simp; exact h.2.1, h.2.2⟩
  | resetPtr p =>
    have hn : n = s.ps.length := h.2.1
    refine ⟨?_, ?_, step_inv hi _⟩
    · by_cases hp : p < s.ps.length
      · simp only [exec, step, List.getElem?_eq_getElem hp, Spec.step, hn, if_pos hp]
      · simp only [exec, step, List.getElem?_eq_none (Nat.le_of_not_lt hp), Spec.step, hn, if_neg hp]
    · by_cases hp : p < s.ps.length
      · simp only [exec, step, List.getElem?_eq_getElem hp, Spec.step, hn, if_pos hp]
        refine agree_mk (by rw [drop_hs]; exact hlen) (by rw [drop_ps]; simp) ?_
        intro x a ha
        rw [drop_hs] at ha
        obtain ⟨b, hb, hc⟩ := agree_at h ha
        refine ⟨b, hb, ?_⟩
        rcases hc with hc | ⟨q, w, rfl, rfl, hr⟩
        · exact .inl hc
        · refine .inr ⟨q, w, rfl, rfl, rel_mono (s := s) ?_ hr⟩
          intro o ho; subst ho
          exact drop_objs_owned (s := { s with ps := s.ps.set p none }) (.inl ⟨x, ha⟩)
      · simp only [exec, step, List.getElem?_eq_none (Nat.le_of_not_lt hp), Spec.step, hn, if_neg hp]; exact hn ▸ h

/-- C54: every history of constructions, copies, moves, assignments, destructions, accesses and changes
behaves as if each handle contained its own value: the same outcomes, and in the end (hence at
any time) the same values seen through the handles. -/
theorem C54_history (C : Classes) : ∀ (ops : List (HOp V)) (s : St V) (m : List (Val V) × Nat), Inv s → Agree s m →
    (execAll C ops s).1 = (Spec.run ops m).1 ∧ Agree (execAll C ops s).2 (Spec.run ops m).2 := by
  intro ops
  induction ops with
  | nil => intro s m _ h; exact ⟨rfl, h⟩
  | cons o ops ih =>
    intro s m hi h
    obtain ⟨h1, h2, h3⟩ := exec_agree C o s m hi h
    simp only [execAll, Spec.run]
    generalize exec C o s = r at h1 h2 h3
    generalize Spec.step o m = r' at h1 h2
    obtain ⟨r1, s'⟩ := r
    obtain ⟨r2, m'⟩ := r'
    simp only at h1 h2 h3
    subst h1
    have := ih s' m' h3 h2
    cases r1 with
    | ub u => exact ⟨rfl, h2⟩
    | ok a => exact ⟨by simp only; rw [this.1], this.2⟩
    | exn e => exact ⟨by simp only; rw [this.1], this.2⟩
    | abort => exact ⟨by simp only; rw [this.1], this.2⟩

/-- C54: the initial states agree, and agreement means the same values are read. -/
theorem C54_agree (s : St V) (m : List (Val V) × Nat) (h : Agree s m) :
    Agree (St.init : St V) ([], 0) ∧
    ∀ x, read x s = match Spec.get m.1 x with
      | .ok (some cv) => .ok cv
      | .ok none => .ub .nullDeref
      | _ => .ub .notAlive := by
  refine ⟨⟨rfl, rfl, by intro x; simp [St.init]⟩, fun x => ?_⟩
  rcases agree_get h x with ⟨a, b, c⟩ | ⟨a, _, b, c⟩ | ⟨o, cv, hx, _, b, hc, d⟩
  · simp only [read, b, c]
  · simp only [read, b, c]
  · simp only [read, b, hc, d]

end Helper.Handle
