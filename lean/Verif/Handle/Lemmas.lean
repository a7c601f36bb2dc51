import Verif.Handle.Model
/-! Lemmas on the Handle model. -/
set_option linter.unusedSectionVars false
namespace Helper.Handle

variable {V : Type}

/-- Some handle or client pointer has object `o`. -/
def Owned (s : St V) (o : Nat) : Prop := (∃ x : Nat, s.hs[x]? = some (some (some o))) ∨ ∃ p : Nat, s.ps[p]? = some (some o)

theorem owned_iff (s : St V) (o : Nat) : s.owned o = true ↔ Owned s o := by
  simp only [St.owned, Bool.or_eq_true, List.any_eq_true, beq_iff_eq, Owned]
  constructor
  · rintro (⟨a, ha, rfl⟩ | ⟨a, ha, rfl⟩)
    · exact .inl (List.mem_iff_getElem?.1 ha)
    · exact .inr (List.mem_iff_getElem?.1 ha)
  · rintro (h | h)
    · exact .inl ⟨_, List.mem_iff_getElem?.2 h, rfl⟩
    · exact .inr ⟨_, List.mem_iff_getElem?.2 h, rfl⟩

/-- Objects live exactly as long as they have an owner. -/
structure Inv (s : St V) : Prop where
  alive : ∀ o, Owned s o → ∃ cv, s.objs o = some cv
  owned : ∀ o cv, s.objs o = some cv → Owned s o
  lt : ∀ o cv, s.objs o = some cv → o < s.next
  refs : ∀ r ∈ s.refs, r.1 < s.next

@[simp] theorem drop_hs (s : St V) (p : Option Nat) : (s.drop p).hs = s.hs := by
  cases p with
  | none => rfl
  | some o => simp only [St.drop]; split <;> rfl
@[simp] theorem drop_ps (s : St V) (p : Option Nat) : (s.drop p).ps = s.ps := by
  cases p with
  | none => rfl
  | some o => simp only [St.drop]; split <;> rfl
@[simp] theorem drop_refs (s : St V) (p : Option Nat) : (s.drop p).refs = s.refs := by
  cases p with
  | none => rfl
  | some o => simp only [St.drop]; split <;> rfl
@[simp] theorem drop_next (s : St V) (p : Option Nat) : (s.drop p).next = s.next := by
  cases p with
  | none => rfl
  | some o => simp only [St.drop]; split <;> rfl

theorem drop_owned (s : St V) (p : Option Nat) (o : Nat) : Owned (s.drop p) o ↔ Owned s o := by
  simp [Owned]

theorem upd_same {α : Type u} (f : Nat → α) (x : Nat) (a : α) : upd f x a x = a := by simp [upd]
theorem upd_other {α : Type u} (f : Nat → α) {x y : Nat} (a : α) (h : y ≠ x) : upd f x a y = f y := by simp [upd, h]

/-- What `drop` does to objects. -/
theorem drop_objs (s : St V) (p : Option Nat) (o : Nat) :
    (s.drop p).objs o = s.objs o ∨ (p = some o ∧ ¬ Owned s o ∧ (s.drop p).objs o = none) := by
  cases p with
  | none => exact .inl rfl
  | some q =>
    simp only [St.drop]
    split
    · exact .inl rfl
    · rename_i h
      by_cases e : o = q
      · subst e
        exact .inr ⟨rfl, fun h' => h ((owned_iff s o).2 h'), upd_same _ _ _⟩
      · exact .inl (upd_other _ _ e)

theorem drop_objs_owned {s : St V} {p : Option Nat} {o : Nat} (h : Owned s o) : (s.drop p).objs o = s.objs o := by
  rcases drop_objs s p o with h' | ⟨_, h', _⟩
  · exact h'
  · exact absurd h h'

theorem drop_objs_gone {s : St V} {o : Nat} (h : ¬ Owned s o) : (s.drop (some o)).objs o = none := by
  have : ¬ s.owned o = true := fun h' => h ((owned_iff s o).1 h')
  simp [St.drop, this, upd_same]

theorem inv_drop {s : St V} {p : Option Nat} (h1 : ∀ o, Owned s o → ∃ cv, s.objs o = some cv)
    (h2 : ∀ o cv, s.objs o = some cv → Owned s o ∨ p = some o) (h3 : ∀ o cv, s.objs o = some cv → o < s.next)
    (h4 : ∀ r ∈ s.refs, r.1 < s.next) : Inv (s.drop p) := by
  constructor
  · intro o ho
    rw [drop_owned] at ho
    rw [drop_objs_owned ho]; exact h1 o ho
  · intro o cv ho
    rw [drop_owned]
    rcases drop_objs s p o with h' | ⟨_, _, h'⟩
    · rw [h'] at ho
      rcases h2 o cv ho with h | h
      · exact h
      · subst h
        rcases Classical.em (Owned s o) with hh | hh
        · exact hh
        · rw [← h', drop_objs_gone hh] at ho; cases ho
    · rw [h'] at ho; cases ho
  · intro o cv ho
    rw [drop_next]
    rcases drop_objs s p o with h' | ⟨_, _, h'⟩
    · rw [h'] at ho; exact h3 o cv ho
    · rw [h'] at ho; cases ho
  · rw [drop_refs, drop_next]; exact h4

theorem get_ok {s : St V} {x : Nat} {p : Option Nat} : s.get x = .ok p ↔ s.hs[x]? = some (some p) := by
  unfold St.get
  split
  · rename_i q h; simp [h]
  · rename_i h
    constructor
    · intro h'; cases h'
    · intro h'; exact absurd h' (h p)

theorem get_cases (s : St V) (x : Nat) : s.get x = .ub .notAlive ∨ ∃ p, s.get x = .ok p ∧ s.hs[x]? = some (some p) := by
  unfold St.get
  split
  · rename_i q h; exact .inr ⟨q, rfl, h⟩
  · exact .inl rfl

theorem obj_ok {s : St V} {x o : Nat} : s.obj x = .ok o ↔ s.hs[x]? = some (some (some o)) := by
  unfold St.obj
  rcases get_cases s x with h | ⟨p, h, h'⟩
  · rw [h]
    simp only [Res.bind]
    constructor
    · intro e; cases e
    · intro e; rw [get_ok.2 e] at h; cases h
  · rw [h, h']
    cases p with
    | none => simp [Res.bind]
    | some q => simp [Res.bind]

theorem obj_null {s : St V} {x : Nat} (h : s.hs[x]? = some (some none)) : s.obj x = .ub .nullDeref := by
  rw [St.obj, get_ok.2 h]; rfl

theorem obj_gone {s : St V} {x : Nat} (h : s.get x = .ub .notAlive) : s.obj x = .ub .notAlive := by
  rw [St.obj, h]; rfl

/-- The three states of a handle. -/
theorem obj_cases (s : St V) (x : Nat) :
    (s.get x = .ub .notAlive ∧ s.obj x = .ub .notAlive ∧ ∀ p, s.hs[x]? ≠ some (some p)) ∨
    (s.hs[x]? = some (some none) ∧ s.obj x = .ub .nullDeref) ∨
    ∃ o, s.hs[x]? = some (some (some o)) ∧ s.obj x = .ok o := by
  rcases get_cases s x with h | ⟨p, h, h'⟩
  · refine .inl ⟨h, obj_gone h, fun p hp => ?_⟩
    rw [get_ok.2 hp] at h; cases h
  · cases p with
    | none => exact .inr (.inl ⟨h', obj_null h'⟩)
    | some o => exact .inr (.inr ⟨o, h', obj_ok.2 h'⟩)

theorem lt_of_hs {s : St V} {x : Nat} {p : Option (Option Nat)} (h : s.hs[x]? = some p) : x < s.hs.length :=
  (List.getElem?_eq_some_iff.1 h).1

theorem getElem?_snoc {α : Type u} (l : List α) (a : α) (i : Nat) :
    (l ++ [a])[i]? = if i = l.length then some a else l[i]? := by
  rcases Nat.lt_trichotomy i l.length with h | h | h
  · rw [List.getElem?_append_left h, if_neg (by omega)]
  · subst h; simp
  · rw [List.getElem?_eq_none (by simp; omega), if_neg (by omega), List.getElem?_eq_none (by omega)]

theorem getElem?_set_lt {α : Type u} {l : List α} {a : α} {i : Nat} (h : i < l.length) (j : Nat) :
    (l.set i a)[j]? = if j = i then some a else l[j]? := by
  rw [List.getElem?_set]
  by_cases e : i = j
  · subst e; simp [h]
  · have : ¬ j = i := fun e' => e e'.symm
    simp [e, this]

/-! ## The effect of `make_unique` -/

/-- The state after a successful `make_unique` on a handle with object `o`. -/
def uniqueSt (x o : Nat) (cv : Nat × V) (s : St V) : St V :=
  St.drop { s with objs := upd s.objs s.next (some cv), next := s.next + 1, hs := s.hs.set x (some (some s.next)) } (some o)

theorem makeUnique_ok {s : St V} {x o : Nat} {cv : Nat × V} (h : s.hs[x]? = some (some (some o))) (ho : s.objs o = some cv) :
    makeUnique none x s = (.ok s.next, uniqueSt x o cv s) := by
  simp only [makeUnique, obj_ok.2 h, ho, uniqueSt]

theorem makeUnique_fail {s : St V} {x o : Nat} {e : Exn} (h : s.hs[x]? = some (some (some o))) :
    makeUnique (some e) x s = (.exn e, s) := by
  simp only [makeUnique, obj_ok.2 h]

theorem uniqueSt_hs {s : St V} {x o : Nat} {cv : Nat × V} (h : s.hs[x]? = some (some (some o))) (y : Nat) :
    (uniqueSt x o cv s).hs[y]? = if y = x then some (some (some s.next)) else s.hs[y]? := by
  rw [uniqueSt, drop_hs]; exact getElem?_set_lt (lt_of_hs h) y

theorem uniqueSt_new {s : St V} {x o : Nat} {cv : Nat × V} (h : s.hs[x]? = some (some (some o))) :
    (uniqueSt x o cv s).objs s.next = some cv := by
  rw [uniqueSt, drop_objs_owned]
  · exact upd_same _ _ _
  exact .inl ⟨x, by simp only; rw [getElem?_set_lt (lt_of_hs h), if_pos rfl]⟩

/-- Objects with another owner than handle `x` are not affected. -/
theorem uniqueSt_other {s : St V} {x o q : Nat} {cv : Nat × V} (h : s.hs[x]? = some (some (some o))) (hi : Inv s)
    (hq : (∃ y : Nat, y ≠ x ∧ s.hs[y]? = some (some (some q))) ∨ ∃ p : Nat, s.ps[p]? = some (some q)) :
    (uniqueSt x o cv s).objs q = s.objs q := by
  have hlt : q < s.next := by
    obtain ⟨cv', hc⟩ := hi.alive q (by
      rcases hq with ⟨y, _, hy⟩ | hp
      · exact .inl ⟨y, hy⟩
      · exact .inr hp)
    exact hi.lt q cv' hc
  rw [uniqueSt, drop_objs_owned]
  · exact upd_other _ _ (by omega)
  · rcases hq with ⟨y, hyx, hy⟩ | hp
    · exact .inl ⟨y, by simp only; rw [getElem?_set_lt (lt_of_hs h), if_neg hyx, hy]⟩
    · exact .inr hp

theorem uniqueSt_inv {s : St V} {x o : Nat} {cv : Nat × V} (hi : Inv s) (h : s.hs[x]? = some (some (some o))) :
    Inv (uniqueSt x o cv s) := by
  have hlt := lt_of_hs h
  refine inv_drop ?_ ?_ ?_ ?_
  · rintro q (⟨y, hy⟩ | ⟨p, hp⟩)
    · simp only at hy
      rw [getElem?_set_lt hlt] at hy
      split at hy
      · cases hy; exact ⟨cv, upd_same _ _ _⟩
      · obtain ⟨cv', hc⟩ := hi.alive q (.inl ⟨y, hy⟩)
        have := hi.lt q cv' hc
        exact ⟨cv', by simp only; rw [upd_other _ _ (by omega)]; exact hc⟩
    · obtain ⟨cv', hc⟩ := hi.alive q (.inr ⟨p, hp⟩)
      have := hi.lt q cv' hc
      exact ⟨cv', by simp only; rw [upd_other _ _ (by omega)]; exact hc⟩
  · intro q cv' hq
    simp only at hq
    by_cases e : q = s.next
    · subst e
      exact .inl (.inl ⟨x, by simp only; rw [getElem?_set_lt hlt, if_pos rfl]⟩)
    · rw [upd_other _ _ e] at hq
      rcases hi.owned q cv' hq with ⟨y, hy⟩ | hp
      · by_cases ey : y = x
        · subst ey; rw [h] at hy; cases hy; exact .inr rfl
        · exact .inl (.inl ⟨y, by simp only; rw [getElem?_set_lt hlt, if_neg ey, hy]⟩)
      · exact .inl (.inr hp)
  · intro q cv' hq
    simp only at hq ⊢
    by_cases e : q = s.next
    · omega
    · rw [upd_other _ _ e] at hq
      have := hi.lt q cv' hq
      omega
  · intro r hr
    have := hi.refs r hr
    simp only; omega

/-! ## Every operation preserves the invariant -/

theorem inv_of_owned {s s' : St V} (hi : Inv s) (h1 : ∀ o, Owned s' o ↔ Owned s o) (h2 : s'.objs = s.objs) (h3 : s'.next = s.next)
    (h4 : ∀ r ∈ s'.refs, r.1 < s'.next) : Inv s' := by
  constructor
  · intro o ho; rw [h2]; exact hi.alive o ((h1 o).1 ho)
  · intro o cv ho; rw [h2] at ho; exact (h1 o).2 (hi.owned o cv ho)
  · intro o cv ho; rw [h2] at ho; rw [h3]; exact hi.lt o cv ho
  · exact h4

theorem writeObj_inv {s : St V} (hi : Inv s) (o : Nat) (v : V) : Inv (writeObj o v s).2 := by
  unfold writeObj
  cases ho : s.objs o with
  | none => exact hi
  | some cv =>
    have hobj : ∀ q, (∃ cv', upd s.objs o (some (cv.1, v)) q = some cv') ↔ ∃ cv', s.objs q = some cv' := by
      intro q
      by_cases e : q = o
      · subst e; rw [upd_same, ho]; simp
      · rw [upd_other _ _ e]
    constructor
    · intro q hq; exact (hobj q).2 (hi.alive q hq)
    · intro q cv' hq
      obtain ⟨c', hc'⟩ := (hobj q).1 ⟨cv', hq⟩
      exact hi.owned q c' hc'
    · intro q cv' hq
      obtain ⟨c', hc'⟩ := (hobj q).1 ⟨cv', hq⟩
      exact hi.lt q c' hc'
    · exact hi.refs

theorem inv_owner_change {s : St V} {hs' : List (Option (Option Nat))} {ps' : List (Option Nat)} {p : Option Nat} (hi : Inv s)
    (h1 : ∀ o, Owned { s with hs := hs', ps := ps' } o → Owned s o)
    (h2 : ∀ o, Owned s o → Owned { s with hs := hs', ps := ps' } o ∨ p = some o) :
    Inv (St.drop { s with hs := hs', ps := ps' } p) :=
  inv_drop (fun o ho => hi.alive o (h1 o ho)) (fun o cv ho => h2 o (hi.owned o cv ho)) hi.lt hi.refs

theorem step_inv {C : Classes} {s : St V} (hi : Inv s) (op : Op V) : Inv (step C op s).2 := by
  have makeUnique_cases : ∀ fail x, (∃ r, makeUnique fail x s = (r, s) ∧ ∀ n, r ≠ .ok n) ∨
      ∃ o cv, s.hs[x]? = some (some (some o)) ∧ s.objs o = some cv ∧ makeUnique fail x s = (.ok s.next, uniqueSt x o cv s) := by
    intro fail x
    rcases obj_cases s x with ⟨_, h, _⟩ | ⟨_, h⟩ | ⟨o, hx, h⟩
    · exact .inl ⟨.ub .notAlive, by simp [makeUnique, h], by simp⟩
    · exact .inl ⟨.ub .nullDeref, by simp [makeUnique, h], by simp⟩
    · cases fail with
      | some e => exact .inl ⟨.exn e, makeUnique_fail hx, by simp⟩
      | none =>
        obtain ⟨cv, hc⟩ := hi.alive o (.inl ⟨x, hx⟩)
        exact .inr ⟨o, cv, hx, hc, makeUnique_ok hx hc⟩
  have snoc : ∀ q : Option Nat, (∀ o, q = some o → Owned s o) → Inv { s with hs := s.hs ++ [some q] } := by
    intro q hq
    refine inv_of_owned hi (fun o => ?_) rfl rfl hi.refs
    constructor
    · rintro (⟨y, hy⟩ | hp)
      · simp only [getElem?_snoc] at hy
        split at hy
        · injection hy with hy; injection hy with hy
          exact hq o hy
        · exact .inl ⟨y, hy⟩
      · exact .inr hp
    · rintro (⟨y, hy⟩ | hp)
      · have := lt_of_hs hy
        exact .inl ⟨y, by simp only [getElem?_snoc]; rw [if_neg (by omega), hy]⟩
      · exact .inr hp
  have psnoc : ∀ {t : St V}, Inv t → ∀ q : Option Nat, (∀ o, q = some o → Owned t o) → Inv { t with ps := t.ps ++ [q] } := by
    intro t hi q hq
    refine inv_of_owned hi (fun o => ?_) rfl rfl hi.refs
    constructor
    · rintro (hy | ⟨p, hp⟩)
      · exact .inl hy
      · simp only [getElem?_snoc] at hp
        split at hp
        · injection hp with hp; exact hq o hp
        · exact .inr ⟨p, hp⟩
    · rintro (hy | ⟨p, hp⟩)
      · exact .inl hy
      · have := (List.getElem?_eq_some_iff.1 hp).1
        exact .inr ⟨p, by simp only [getElem?_snoc]; rw [if_neg (by omega), hp]⟩
  have rsnoc : ∀ {t : St V}, Inv t → ∀ (o : Nat) (b : Bool), o < t.next → Inv { t with refs := t.refs ++ [(o, b)] } := by
    intro t hi o b ho
    refine inv_of_owned hi (fun _ => Iff.rfl) rfl rfl ?_
    intro r hr
    simp only [List.mem_append, List.mem_singleton] at hr
    rcases hr with hr | rfl
    · exact hi.refs r hr
    · exact ho
  have hlt : ∀ {x o : Nat}, s.hs[x]? = some (some (some o)) → o < s.next := by
    intro x o hx
    obtain ⟨cv, hc⟩ := hi.alive o (.inl ⟨x, hx⟩)
    exact hi.lt o cv hc
  cases op with
  | create c v =>
    simp only [step, create]
    constructor
    · rintro o (⟨y, hy⟩ | ⟨p, hp⟩)
      · simp only [getElem?_snoc] at hy
        split at hy
        · cases hy; exact ⟨_, upd_same _ _ _⟩
        · have := hlt hy
          obtain ⟨cv, hc⟩ := hi.alive o (.inl ⟨y, hy⟩)
          exact ⟨cv, by simp only; rw [upd_other _ _ (by omega)]; exact hc⟩
      · obtain ⟨cv, hc⟩ := hi.alive o (.inr ⟨p, hp⟩)
        have := hi.lt o cv hc
        exact ⟨cv, by simp only; rw [upd_other _ _ (by omega)]; exact hc⟩
    · intro o cv ho
      simp only at ho
      by_cases e : o = s.next
      · subst e; exact .inl ⟨s.hs.length, by simp [getElem?_snoc]⟩
      · rw [upd_other _ _ e] at ho
        rcases hi.owned o cv ho with ⟨y, hy⟩ | hp
        · have := lt_of_hs hy
          exact .inl ⟨y, by simp only [getElem?_snoc]; rw [if_neg (by omega), hy]⟩
        · exact .inr hp
    · intro o cv ho
      simp only at ho ⊢
      by_cases e : o = s.next
      · omega
      · rw [upd_other _ _ e] at ho
        have := hi.lt o cv ho; omega
    · intro r hr
      have := hi.refs r hr
      simp only; omega
  | null => exact snoc none (by simp)
  | fromPtr p =>
    simp only [step]
    cases hp : s.ps[p]? with
    | none => exact hi
    | some q => exact snoc q (fun o ho => .inr ⟨p, by rw [hp, ho]⟩)
  | copy y =>
    simp only [step]
    rcases get_cases s y with h | ⟨q, h, h'⟩
    · rw [h]; exact hi
    · rw [h]; exact snoc q (fun o ho => .inl ⟨y, by rw [h', ho]⟩)
  | move y =>
    simp only [step]
    rcases get_cases s y with h | ⟨q, h, h'⟩
    · rw [h]; exact hi
    · rw [h]
      have hly := lt_of_hs h'
      refine inv_of_owned hi (fun o => ?_) rfl rfl hi.refs
      constructor
      · rintro (⟨u, hu⟩ | hp)
        · simp only [getElem?_snoc] at hu
          split at hu
          · injection hu with hu; injection hu with hu; subst hu
            exact .inl ⟨y, h'⟩
          · rw [getElem?_set_lt hly] at hu
            split at hu
            · cases hu
            · exact .inl ⟨u, hu⟩
        · exact .inr hp
      · rintro (⟨u, hu⟩ | hp)
        · by_cases e : u = y
          · subst e; rw [h'] at hu; cases hu
            exact .inl ⟨s.hs.length, by simp [getElem?_snoc]⟩
          · have := lt_of_hs hu
            refine .inl ⟨u, ?_⟩
            simp only [getElem?_snoc, List.length_set]
            rw [if_neg (by omega), getElem?_set_lt hly, if_neg e, hu]
        · exact .inr hp
  | assign x y =>
    simp only [step]
    rcases get_cases s x with h | ⟨p, h, hx⟩
    · rw [h]; exact hi
    · rcases get_cases s y with h2 | ⟨q, h2, hy⟩
      · rw [h, h2]; exact hi
      · rw [h, h2]
        have hl := lt_of_hs hx
        refine inv_owner_change (ps' := s.ps) hi ?_ ?_
        · rintro o (⟨u, hu⟩ | hp)
          · simp only at hu
            rw [getElem?_set_lt hl] at hu
            split at hu
            · injection hu with hu; injection hu with hu; subst hu; exact .inl ⟨y, hy⟩
            · exact .inl ⟨u, hu⟩
          · exact .inr hp
        · rintro o (⟨u, hu⟩ | hp)
          · by_cases e : u = x
            · subst e; rw [hx] at hu; cases hu; exact .inr rfl
            · exact .inl (.inl ⟨u, by simp only; rw [getElem?_set_lt hl, if_neg e, hu]⟩)
          · exact .inl (.inr hp)
  | moveAssign x y =>
    simp only [step]
    rcases get_cases s x with h | ⟨p, h, hx⟩
    · rw [h]; exact hi
    · rcases get_cases s y with h2 | ⟨q, h2, hy⟩
      · rw [h, h2]; exact hi
      · rw [h, h2]
        simp only
        by_cases exy : x = y
        · rw [if_pos exy]; exact hi
        · rw [if_neg exy]
          have hl := lt_of_hs hx
          have hly : y < (s.hs.set x (some q)).length := by rw [List.length_set]; exact lt_of_hs hy
          have hg : ∀ u : Nat, ((s.hs.set x (some q)).set y (some none))[u]? =
              if u = y then some (some none) else if u = x then some (some q) else s.hs[u]? := by
            intro u; rw [getElem?_set_lt hly, getElem?_set_lt hl]
          refine inv_owner_change (ps' := s.ps) hi ?_ ?_
          · rintro o (⟨u, hu⟩ | hp)
            · simp only at hu
              rw [hg] at hu
              split at hu
              · cases hu
              · split at hu
                · injection hu with hu; injection hu with hu; subst hu; exact .inl ⟨y, hy⟩
                · exact .inl ⟨u, hu⟩
            · exact .inr hp
          · rintro o (⟨u, hu⟩ | hp)
            · by_cases e : u = x
              · subst e; rw [hx] at hu; cases hu; exact .inr rfl
              · by_cases e2 : u = y
                · subst e2; rw [hy] at hu; cases hu
                  exact .inl (.inl ⟨x, by simp only; rw [hg, if_neg exy, if_pos rfl]⟩)
                · exact .inl (.inl ⟨u, by simp only; rw [hg, if_neg e2, if_neg e, hu]⟩)
            · exact .inl (.inr hp)
  | destroy x =>
    simp only [step]
    rcases get_cases s x with h | ⟨p, h, hx⟩
    · rw [h]; exact hi
    · rw [h]
      have hl := lt_of_hs hx
      refine inv_owner_change (ps' := s.ps) hi ?_ ?_
      · rintro o (⟨u, hu⟩ | hp)
        · simp only at hu
          rw [getElem?_set_lt hl] at hu
          split at hu
          · cases hu
          · exact .inl ⟨u, hu⟩
        · exact .inr hp
      · rintro o (⟨u, hu⟩ | hp)
        · by_cases e : u = x
          · subst e; rw [hx] at hu; cases hu; exact .inr rfl
          · exact .inl (.inl ⟨u, by simp only; rw [getElem?_set_lt hl, if_neg e, hu]⟩)
        · exact .inl (.inr hp)
  | ref x fail =>
    simp only [step]
    rcases makeUnique_cases fail x with ⟨r, hr, hn⟩ | ⟨o, cv, hx, ho, hm⟩
    · rw [hr]; cases r with
      | ok n => exact absurd rfl (hn n)
      | exn e => exact hi
      | ub u => exact hi
      | abort => exact hi
    · rw [hm]
      exact rsnoc (uniqueSt_inv hi hx) s.next true (by simp [uniqueSt])
  | cref x =>
    simp only [step]
    rcases obj_cases s x with ⟨_, h, _⟩ | ⟨_, h⟩ | ⟨o, hx, h⟩
    · rw [h]; exact hi
    · rw [h]; exact hi
    · rw [h]; exact rsnoc hi o false (hlt hx)
  | managed x fail =>
    simp only [step]
    rcases makeUnique_cases fail x with ⟨r, hr, hn⟩ | ⟨o, cv, hx, ho, hm⟩
    · rw [hr]; cases r with
      | ok n => exact absurd rfl (hn n)
      | exn e => exact hi
      | ub u => exact hi
      | abort => exact hi
    · rw [hm]
      refine psnoc (uniqueSt_inv hi hx) (some s.next) ?_
      intro o' ho'; cases ho'
      exact .inl ⟨x, by rw [uniqueSt_hs hx, if_pos rfl]⟩
  | cmanaged x =>
    simp only [step]
    rcases get_cases s x with h | ⟨q, h, h'⟩
    · rw [h]; exact hi
    · rw [h]; exact psnoc hi q (fun o ho => .inl ⟨x, by rw [h', ho]⟩)
  | resetPtr p =>
    simp only [step]
    cases hp : s.ps[p]? with
    | none => exact hi
    | some q =>
      have hl : p < s.ps.length := (List.getElem?_eq_some_iff.1 hp).1
      refine inv_owner_change (hs' := s.hs) hi ?_ ?_
      · rintro o (hu | ⟨u, hu⟩)
        · exact .inl hu
        · simp only at hu
          rw [getElem?_set_lt hl] at hu
          split at hu
          · cases hu
          · exact .inr ⟨u, hu⟩
      · rintro o (hu | ⟨u, hu⟩)
        · exact .inl (.inl hu)
        · by_cases e : u = p
          · subst e; rw [hp] at hu; cases hu; exact .inr rfl
          · exact .inl (.inr ⟨u, by simp only; rw [getElem?_set_lt hl, if_neg e, hu]⟩)
  | extract i t x =>
    simp only [step]
    rcases obj_cases s x with ⟨_, h, _⟩ | ⟨_, h⟩ | ⟨o, hx, h⟩
    · rw [h]; exact hi
    · rw [h]; exact hi
    · obtain ⟨⟨k, v⟩, hc⟩ := hi.alive o (.inl ⟨x, hx⟩)
      rw [h]; simp only [hc]
      cases he : C.extract i t k with
      | ok u => exact rsnoc hi o true (hlt hx)
      | exn e => exact hi
      | ub u => exact hi
      | abort => exact hi
  | writeRef r v =>
    simp only [step]
    split
    · exact writeObj_inv hi _ v
    · exact hi
  | writePtr p v =>
    simp only [step]
    split
    · exact writeObj_inv hi _ v
    · exact hi
    · exact hi

theorem run_inv {C : Classes} : ∀ (ops : List (Op V)) {s : St V}, Inv s → Inv (run C ops s).2 := by
  intro ops
  induction ops with
  | nil => intro s h; exact h
  | cons o ops ih =>
    intro s h
    have h1 := step_inv (C := C) h o
    rw [run]
    generalize step C o s = r at h1
    obtain ⟨r1, s'⟩ := r
    cases r1 with
    | ub u => exact h1
    | ok a => exact ih h1
    | exn e => exact ih h1
    | abort => exact ih h1

theorem init_inv : Inv (St.init : St V) where
  alive := by rintro o (⟨x, h⟩ | ⟨x, h⟩) <;> simp [St.init] at h
  owned := by intro o cv h; simp [St.init] at h
  lt := by intro o cv h; simp [St.init] at h
  refs := by simp [St.init]

end Helper.Handle
