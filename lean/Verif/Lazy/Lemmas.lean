import Verif.Lazy.Model
/-! Lemmas on the Lazy model. -/
namespace Helper.Lazy

/-- Some live variable owns object `k`. -/
def Held (w : World) (k : Nat) : Prop := ∃ (x : Nat) (z : Lz), w.get x = some z ∧ z.obj = some k

theorem get_lt {w : World} {x : Nat} {z : Lz} (h : w.get x = some z) : x < w.lz.length := by
  rcases Nat.lt_or_ge x w.lz.length with h' | h'
  · exact h'
  · rw [World.get, List.getElem?_eq_none h'] at h; simp at h

theorem get_set {w : World} {x : Nat} {o : Option Lz} (hx : x < w.lz.length) (y : Nat) :
    (w.set x o).get y = if y = x then o else w.get y := by
  simp only [World.get, World.set, List.getElem?_set]
  by_cases h : x = y
  · subst h; simp [hx]
  · have : ¬ y = x := fun e => h e.symm
    simp [h, this]

theorem get_append {w : World} {o : Lz} (y : Nat) :
    World.get { w with lz := w.lz ++ [some o] } y = if y = w.lz.length then some o else w.get y := by
  simp only [World.get]
  rcases Nat.lt_trichotomy y w.lz.length with h | h | h
  · rw [List.getElem?_append_left h, if_neg (by omega)]
  · subst h; simp
  · rw [List.getElem?_eq_none (by simp; omega), if_neg (by omega), List.getElem?_eq_none (by omega)]

theorem held_iff (w : World) (k : Nat) : w.held k = true ↔ Held w k := by
  simp only [World.held, List.any_eq_true, Held, World.get]
  constructor
  · rintro ⟨o, ho, h⟩
    obtain ⟨x, hx, he⟩ := List.mem_iff_getElem.1 ho
    cases o with
    | none => simp at h
    | some z => exact ⟨x, z, by rw [List.getElem?_eq_getElem hx, he]; rfl, by simpa using h⟩
  · rintro ⟨x, z, h, hz⟩
    cases hl : w.lz[x]? with
    | none => simp [hl] at h
    | some o =>
      simp only [hl, Option.join_some] at h
      exact ⟨o, List.mem_of_getElem? hl, by simp [h, hz]⟩

@[simp] theorem drop_lz (w : World) (o : Option Nat) : (w.drop o).lz = w.lz := by
  cases o with
  | none => rfl
  | some k => simp only [World.drop]; split <;> rfl

@[simp] theorem drop_calls (w : World) (o : Option Nat) : (w.drop o).calls = w.calls := by
  cases o with
  | none => rfl
  | some k => simp only [World.drop]; split <;> rfl

@[simp] theorem drop_get (w : World) (o : Option Nat) (x : Nat) : (w.drop o).get x = w.get x := by
  simp [World.get]

theorem drop_held (w : World) (o : Option Nat) (k : Nat) : Held (w.drop o) k ↔ Held w k := by
  simp [Held]

theorem drop_deleted (w : World) (o : Option Nat) :
    (∃ k, o = some k ∧ ¬ Held w k ∧ (w.drop o).deleted = w.deleted ++ [k]) ∨
    ((∀ k, o = some k → Held w k) ∧ (w.drop o).deleted = w.deleted) := by
  cases o with
  | none => exact .inr ⟨by simp, rfl⟩
  | some k =>
    by_cases h : w.held k = true
    · refine .inr ⟨fun j hj => ?_, by simp [World.drop, h]⟩
      cases hj; exact (held_iff w k).1 h
    · refine .inl ⟨k, rfl, fun h' => h ((held_iff w k).2 h'), by simp [World.drop, h]⟩

/-- The call made an object. -/
def Made (f : Nat → Outcome) (k : Nat) : Prop := f k = .obj ∨ f k = .noBlock

structure Inv (f : Nat → Outcome) (w : World) : Prop where
  held : ∀ k, Held w k → k ∉ w.deleted ∧ k < w.calls.length ∧ f k = .obj
  nodup : w.deleted.Nodup
  deleted : ∀ k ∈ w.deleted, k < w.calls.length ∧ Made f k
  all : ∀ k, k < w.calls.length → Made f k → Held w k ∨ k ∈ w.deleted

theorem nodup_snoc {l : List Nat} {a : Nat} (h : l.Nodup) (ha : a ∉ l) : (l ++ [a]).Nodup := by
  rw [List.nodup_append]
  refine ⟨h, by simp, ?_⟩
  intro x hx y hy
  simp only [List.mem_singleton] at hy
  subst hy
  intro e; subst e; exact ha hx

/-- Changing the owners without calling a factory. -/
theorem inv_drop {f : Nat → Outcome} {w w' : World} {o : Option Nat} (h : Inv f w)
    (hc : w'.calls = w.calls) (hd : w'.deleted = w.deleted)
    (h1 : ∀ k, Held w' k → Held w k) (h2 : ∀ k, Held w k → Held w' k ∨ o = some k)
    (h3 : ∀ k, o = some k → Held w k) : Inv f (w'.drop o) := by
  rcases drop_deleted w' o with ⟨k, hk, hn, he⟩ | ⟨hk, he⟩
  · have hk' := h.held k (h3 k hk)
    constructor
    · intro j hj
      rw [drop_held] at hj
      have := h.held j (h1 j hj)
      rw [he, hd, drop_calls, hc]
      refine ⟨?_, this.2⟩
      simp only [List.mem_append, List.mem_singleton, not_or]
      exact ⟨this.1, fun e => hn (e ▸ hj)⟩
    · rw [he, hd]; exact nodup_snoc h.nodup hk'.1
    · intro j hj
      rw [he, hd, List.mem_append, List.mem_singleton] at hj
      rw [drop_calls, hc]
      rcases hj with hj | rfl
      · exact h.deleted j hj
      · exact ⟨hk'.2.1, .inl hk'.2.2⟩
    · intro j hj hm
      rw [drop_calls, hc] at hj
      rw [drop_held, he, hd, List.mem_append, List.mem_singleton]
      rcases h.all j hj hm with hh | hh
      · rcases h2 j hh with hh' | hh'
        · exact .inl hh'
        · rw [hk] at hh'; cases hh'; exact .inr (.inr rfl)
      · exact .inr (.inl hh)
  · constructor
    · intro j hj
      rw [drop_held] at hj
      rw [he, hd, drop_calls, hc]
      exact h.held j (h1 j hj)
    · rw [he, hd]; exact h.nodup
    · intro j hj
      rw [he, hd] at hj
      rw [drop_calls, hc]
      exact h.deleted j hj
    · intro j hj hm
      rw [drop_calls, hc] at hj
      rw [drop_held, he, hd]
      rcases h.all j hj hm with hh | hh
      · rcases h2 j hh with hh' | hh'
        · exact .inl hh'
        · exact .inl (hk j hh')
      · exact .inr hh

theorem inv_same {f : Nat → Outcome} {w w' : World} (h : Inv f w)
    (hc : w'.calls = w.calls) (hd : w'.deleted = w.deleted) (h1 : ∀ k, Held w' k ↔ Held w k) : Inv f w' := by
  have := inv_drop (o := none) (w' := w') h hc hd (fun k => (h1 k).1) (fun k hk => .inl ((h1 k).2 hk)) (by simp)
  exact this

theorem eval_inv {f : Nat → Outcome} {w : World} (h : Inv f w) (x : Nat) : Inv f (eval f x w).2 := by
  unfold eval
  cases hx : w.get x with
  | none => exact h
  | some z =>
    simp only
    cases ho : z.obj with
    | some k => exact h
    | none =>
      simp only
      by_cases hf : z.func = true
      · simp only [if_pos hf]
        have hlt := get_lt hx
        have hfresh : ¬ Held w w.calls.length := fun hh => by have := (h.held _ hh).2.1; omega
        have hfresh' : w.calls.length ∉ w.deleted := fun hh => by have := (h.deleted _ hh).1; omega
        have hbad : ∀ (d : List Nat), (f w.calls.length = .null ∨ ∃ e, f w.calls.length = .throws e) →
            Inv f { w with calls := w.calls ++ [x] } := by
          intro d hn
          have hnm : ¬ Made f w.calls.length := by
            rcases hn with hn | ⟨e, hn⟩ <;> simp [Made, hn]
          constructor
          · intro k hk
            have := h.held k hk
            simp only [List.length_append, List.length_singleton]
            exact ⟨this.1, by omega, this.2.2⟩
          · exact h.nodup
          · intro k hk
            have := h.deleted k hk
            simp only [List.length_append, List.length_singleton]
            exact ⟨by omega, this.2⟩
          · intro k hk hm
            simp only [List.length_append, List.length_singleton] at hk
            by_cases hkk : k = w.calls.length
            · subst hkk; exact absurd hm hnm
            · exact h.all k (by omega) hm
        cases hfk : f w.calls.length with
        | obj =>
          simp only
          have hg : ∀ y, (World.set { w with calls := w.calls ++ [x] } x (some ⟨true, some w.calls.length⟩)).get y
              = if y = x then some ⟨true, some w.calls.length⟩ else w.get y := fun y => by
            rw [get_set (by exact hlt)]; rfl
          have hH : ∀ k, Held (World.set { w with calls := w.calls ++ [x] } x (some ⟨true, some w.calls.length⟩)) k ↔
              Held w k ∨ k = w.calls.length := by
            intro k
            constructor
            · rintro ⟨y, zy, hy, hk⟩
              rw [hg] at hy
              split at hy
              · cases hy; simp at hk; exact .inr hk.symm
              · exact .inl ⟨y, zy, hy, hk⟩
            · rintro (⟨y, zy, hy, hk⟩ | rfl)
              · refine ⟨y, zy, ?_, hk⟩
                rw [hg, if_neg, hy]
                rintro rfl
                rw [hx] at hy; cases hy; rw [ho] at hk; cases hk
              · exact ⟨x, _, by rw [hg, if_pos rfl], rfl⟩
          constructor
          · intro k hk
            simp only [World.set, List.length_append, List.length_singleton]
            rcases (hH k).1 hk with hk | rfl
            · have := h.held k hk
              exact ⟨this.1, by omega, this.2.2⟩
            · exact ⟨hfresh', by omega, hfk⟩
          · exact h.nodup
          · intro k hk
            have := h.deleted k hk
            simp only [World.set, List.length_append, List.length_singleton]
            exact ⟨by omega, this.2⟩
          · intro k hk hm
            simp only [World.set, List.length_append, List.length_singleton] at hk
            by_cases hkk : k = w.calls.length
            · exact .inl ((hH k).2 (.inr hkk))
            · rcases h.all k (by omega) hm with hh | hh
              · exact .inl ((hH k).2 (.inl hh))
              · exact .inr hh
        | null => exact hbad [] (.inl hfk)
        | throws e => exact hbad [] (.inr ⟨e, hfk⟩)
        | noBlock =>
          simp only
          constructor
          · intro k hk
            have := h.held k hk
            simp only [List.length_append, List.length_singleton, List.mem_append, List.mem_singleton, not_or]
            exact ⟨⟨this.1, by omega⟩, by omega, this.2.2⟩
          · exact nodup_snoc h.nodup hfresh'
          · intro k hk
            simp only [List.mem_append, List.mem_singleton] at hk
            simp only [List.length_append, List.length_singleton]
            rcases hk with hk | rfl
            · have := h.deleted k hk; exact ⟨by omega, this.2⟩
            · exact ⟨by omega, .inr hfk⟩
          · intro k hk hm
            simp only [List.length_append, List.length_singleton] at hk
            simp only [List.mem_append, List.mem_singleton]
            by_cases hkk : k = w.calls.length
            · exact .inr (.inr hkk)
            · rcases h.all k (by omega) hm with hh | hh
              · exact .inl hh
              · exact .inr (.inl hh)
      · simp only [if_neg hf]; exact h

theorem set_lz_length (w : World) (x : Nat) (o : Option Lz) : (w.set x o).lz.length = w.lz.length := by
  simp [World.set]

theorem step_inv {f : Nat → Outcome} {w : World} (h : Inv f w) (o : Op) : Inv f (step f o w).2 := by
  cases o with
  | construct func =>
    refine inv_same h rfl rfl fun k => ?_
    constructor
    · rintro ⟨y, zy, hy, hk⟩
      simp only [step] at hy
      rw [get_append] at hy
      split at hy
      · cases hy; simp at hk
      · exact ⟨y, zy, hy, hk⟩
    · rintro ⟨y, zy, hy, hk⟩
      refine ⟨y, zy, ?_, hk⟩
      have := get_lt hy
      simp only [step]
      rw [get_append, if_neg (by omega), hy]
  | copy y =>
    simp only [step]
    cases hy : w.get y with
    | none => exact h
    | some z =>
      refine inv_same h rfl rfl fun k => ?_
      constructor
      · rintro ⟨y', zy, hy', hk⟩
        simp only at hy'
        rw [get_append] at hy'
        split at hy'
        · cases hy'; exact ⟨y, z, hy, hk⟩
        · exact ⟨y', zy, hy', hk⟩
      · rintro ⟨y', zy, hy', hk⟩
        refine ⟨y', zy, ?_, hk⟩
        have := get_lt hy'
        simp only
        rw [get_append, if_neg (by omega), hy']
  | move y =>
    simp only [step]
    cases hy : w.get y with
    | none => exact h
    | some z =>
      have hlt := get_lt hy
      refine inv_same h rfl rfl fun k => ?_
      constructor
      · rintro ⟨y', zy, hy', hk⟩
        simp only at hy'
        rw [get_append, set_lz_length, get_set hlt] at hy'
        split at hy'
        · cases hy'; exact ⟨y, z, hy, hk⟩
        · split at hy'
          · cases hy'; simp at hk
          · exact ⟨y', zy, hy', hk⟩
      · rintro ⟨y', zy, hy', hk⟩
        by_cases e : y' = y
        · subst e
          rw [hy] at hy'; cases hy'
          refine ⟨w.lz.length, z, ?_, hk⟩
          simp only
          rw [get_append, set_lz_length, if_pos rfl]
        · refine ⟨y', zy, ?_, hk⟩
          have := get_lt hy'
          simp only
          rw [get_append, set_lz_length, if_neg (by omega), get_set hlt, if_neg e, hy']
  | assign x y =>
    simp only [step]
    cases hx : w.get x with
    | none => exact h
    | some zx =>
      cases hy : w.get y with
      | none => exact h
      | some zy =>
        have hlt := get_lt hx
        refine inv_drop h rfl rfl ?_ ?_ ?_
        · rintro k ⟨u, zu, hu, hk⟩
          rw [get_set hlt] at hu
          split at hu
          · cases hu; exact ⟨y, zy, hy, hk⟩
          · exact ⟨u, zu, hu, hk⟩
        · rintro k ⟨u, zu, hu, hk⟩
          by_cases e : u = x
          · subst e; rw [hx] at hu; cases hu; exact .inr hk
          · exact .inl ⟨u, zu, by rw [get_set hlt, if_neg e, hu], hk⟩
        · intro k hk; exact ⟨x, zx, hx, hk⟩
  | moveAssign x y =>
    simp only [step]
    cases hx : w.get x with
    | none => exact h
    | some zx =>
      cases hy : w.get y with
      | none => exact h
      | some zy =>
        simp only
        by_cases e : x = y
        · rw [if_pos e]; exact h
        · rw [if_neg e]
          have hlx := get_lt hx
          have hly : y < (w.set x (some zy)).lz.length := by rw [set_lz_length]; exact get_lt hy
          have hg : ∀ u, ((w.set x (some zy)).set y (some ⟨false, none⟩)).get u =
              if u = y then some ⟨false, none⟩ else if u = x then some zy else w.get u := by
            intro u; rw [get_set hly, get_set hlx]
          refine inv_drop h rfl rfl ?_ ?_ ?_
          · rintro k ⟨u, zu, hu, hk⟩
            rw [hg] at hu
            split at hu
            · cases hu; simp at hk
            · split at hu
              · cases hu; exact ⟨y, zy, hy, hk⟩
              · exact ⟨u, zu, hu, hk⟩
          · rintro k ⟨u, zu, hu, hk⟩
            by_cases e1 : u = x
            · subst e1; rw [hx] at hu; cases hu; exact .inr hk
            · by_cases e2 : u = y
              · subst e2; rw [hy] at hu; cases hu
                exact .inl ⟨x, zy, by rw [hg, if_neg e, if_pos rfl], hk⟩
              · exact .inl ⟨u, zu, by rw [hg, if_neg e2, if_neg e1, hu], hk⟩
          · intro k hk; exact ⟨x, zx, hx, hk⟩
  | destroy x =>
    simp only [step]
    cases hx : w.get x with
    | none => exact h
    | some zx =>
      have hlt := get_lt hx
      refine inv_drop h rfl rfl ?_ ?_ ?_
      · rintro k ⟨u, zu, hu, hk⟩
        rw [get_set hlt] at hu
        split at hu
        · cases hu
        · exact ⟨u, zu, hu, hk⟩
      · rintro k ⟨u, zu, hu, hk⟩
        by_cases e : u = x
        · subst e; rw [hx] at hu; cases hu; exact .inr hk
        · exact .inl ⟨u, zu, by rw [get_set hlt, if_neg e, hu], hk⟩
      · intro k hk; exact ⟨x, zx, hx, hk⟩
  | eval x =>
    have := eval_inv h x
    simp only [step]
    generalize he : eval f x w = r at this ⊢
    obtain ⟨r1, w'⟩ := r
    cases r1 <;> exact this

theorem run_inv {f : Nat → Outcome} : ∀ (os : List Op) {w : World}, Inv f w → Inv f (run f os w).2 := by
  intro os
  induction os with
  | nil => intro w h; exact h
  | cons o os ih =>
    intro w h
    have h1 := step_inv h o
    rw [run]
    generalize hs : step f o w = r at h1
    obtain ⟨r1, w'⟩ := r
    cases r1 with
    | ub u => exact h1
    | ok a => exact ih h1
    | exn e => exact ih h1
    | abort => exact ih h1

theorem init_inv (f : Nat → Outcome) : Inv f World.init where
  held := by rintro k ⟨x, z, h, _⟩; simp [World.init, World.get] at h
  nodup := List.nodup_nil
  deleted := by simp [World.init]
  all := by simp [World.init]

/-! ## What an operation leaves alone -/

/-- The operation writes to variable `x` other than by evaluating it. -/
def touches (x : Nat) : Op → Bool
  | .move y => y == x
  | .assign y _ => y == x
  | .moveAssign y z => y == x || z == x
  | .destroy y => y == x
  | _ => false

theorem eval_get (f : Nat → Outcome) (w : World) {x y : Nat} (h : y ≠ x) : (eval f x w).2.get y = w.get y := by
  unfold eval
  cases hx : w.get x with
  | none => rfl
  | some z =>
    simp only
    cases ho : z.obj with
    | some k => rfl
    | none =>
      simp only
      split
      · cases hf : f w.calls.length with
        | obj => simp only; rw [get_set (by exact get_lt hx), if_neg h]; rfl
        | null => rfl
        | throws e => rfl
        | noBlock => rfl
      · rfl

theorem step_get (f : Nat → Outcome) (w : World) {o : Op} {x : Nat} (hx : x < w.lz.length) (ht : touches x o = false)
    (he : o ≠ .eval x) : (step f o w).2.get x = w.get x := by
  cases o with
  | construct func => simp only [step]; rw [get_append, if_neg (by omega)]
  | copy y =>
    simp only [step]
    cases hy : w.get y with
    | none => rfl
    | some z => simp only; rw [get_append, if_neg (by omega)]
  | move y =>
    simp only [step]
    cases hy : w.get y with
    | none => rfl
    | some z =>
      simp only [touches, beq_eq_false_iff_ne] at ht
      simp only
      rw [get_append, set_lz_length, if_neg (by omega), get_set (get_lt hy), if_neg (fun e => ht e.symm)]
  | assign a b =>
    simp only [step]
    simp only [touches, beq_eq_false_iff_ne] at ht
    cases ha : w.get a with
    | none => rfl
    | some za =>
      cases hb : w.get b with
      | none => rfl
      | some zb => simp only [drop_get]; rw [get_set (get_lt ha), if_neg (fun e => ht e.symm)]
  | moveAssign a b =>
    simp only [step]
    simp only [touches, Bool.or_eq_false_iff, beq_eq_false_iff_ne] at ht
    cases ha : w.get a with
    | none => rfl
    | some za =>
      cases hb : w.get b with
      | none => rfl
      | some zb =>
        simp only
        split
        · rfl
        · simp only [drop_get]
          rw [get_set (by rw [set_lz_length]; exact get_lt hb), if_neg (fun e => ht.2 e.symm), get_set (get_lt ha),
            if_neg (fun e => ht.1 e.symm)]
  | destroy a =>
    simp only [step]
    simp only [touches, beq_eq_false_iff_ne] at ht
    cases ha : w.get a with
    | none => rfl
    | some za => simp only [drop_get]; rw [get_set (get_lt ha), if_neg (fun e => ht e.symm)]
  | eval y =>
    have hne : x ≠ y := fun e => he (by rw [e])
    have := eval_get f w hne
    simp only [step]
    generalize eval f y w = r at this ⊢
    obtain ⟨r1, w'⟩ := r
    cases r1 <;> exact this

theorem eval_calls (f : Nat → Outcome) (w : World) (x : Nat) :
    (eval f x w).2.calls = w.calls ∨ (eval f x w).2.calls = w.calls ++ [x] := by
  unfold eval
  cases hx : w.get x with
  | none => exact .inl rfl
  | some z =>
    simp only
    cases ho : z.obj with
    | some k => exact .inl rfl
    | none =>
      simp only
      split
      · right; cases f w.calls.length <;> rfl
      · exact .inl rfl

/-- Only evaluations call a factory. -/
theorem step_calls (f : Nat → Outcome) (w : World) (o : Op) :
    (step f o w).2.calls = w.calls ∨ ∃ x, o = .eval x ∧ (step f o w).2.calls = w.calls ++ [x] := by
  cases o with
  | construct func => exact .inl rfl
  | copy y => simp only [step]; left; split <;> rfl
  | move y => simp only [step]; left; split <;> rfl
  | assign a b => simp only [step]; left; split <;> simp [World.set]
  | moveAssign a b =>
    simp only [step]; left
    split
    · split <;> simp [World.set]
    · rfl
  | destroy a => simp only [step]; left; split <;> simp [World.set]
  | eval y =>
    have := eval_calls f w y
    simp only [step]
    generalize eval f y w = r at this ⊢
    obtain ⟨r1, w'⟩ := r
    rcases this with h | h
    · left; cases r1 <;> exact h
    · right; refine ⟨y, rfl, ?_⟩; cases r1 <;> exact h

theorem step_length (f : Nat → Outcome) (w : World) (o : Op) : w.lz.length ≤ (step f o w).2.lz.length := by
  cases o with
  | construct func => simp [step]
  | copy y => simp only [step]; split <;> simp
  | move y => simp only [step]; split <;> simp [World.set]
  | assign a b => simp only [step]; split <;> simp [World.set]
  | moveAssign a b =>
    simp only [step]
    split
    · split <;> simp [World.set]
    · exact Nat.le_refl _
  | destroy a => simp only [step]; split <;> simp [World.set]
  | eval y =>
    have : (eval f y w).2.lz.length = w.lz.length := by
      unfold eval
      cases hx : w.get y with
      | none => rfl
      | some z =>
        simp only
        cases ho : z.obj with
        | some k => rfl
        | none =>
          simp only
          split
          · cases f w.calls.length <;> simp [World.set]
          · rfl
    simp only [step]
    generalize eval f y w = r at this ⊢
    obtain ⟨r1, w'⟩ := r
    cases r1 <;> exact Nat.le_of_eq this.symm

end Helper.Lazy
