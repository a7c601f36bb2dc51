import Verif.Handle.Props
/-!
# Properties C55 to C57: references and casts of handles
-/
set_option linter.unusedSectionVars false
namespace Helper.Handle

variable {V : Type}

/-! ## C57 -/

/-- `k` is `t` or derives from it, through any number of direct bases. -/
inductive Derives (C : Classes) : Nat → Nat → Prop where
  | refl (k : Nat) : Derives C k k
  | base {k b t : Nat} (h : b ∈ C.bases k) (d : Derives C b t) : Derives C k t

theorem cast_iff (C : Classes) (t : Nat) : ∀ k, C.cast k t = true ↔ Derives C k t := by
  intro k
  induction k using Nat.strongRecOn with
  | ind k ih =>
    rw [Classes.cast]
    simp only [Bool.or_eq_true, beq_iff_eq, List.any_eq_true, List.mem_attach, true_and, Subtype.exists]
    constructor
    · rintro (rfl | ⟨b, hb, h⟩)
      · exact .refl k
      · exact .base hb ((ih b (C.lt k b hb)).1 h)
    · intro h
      cases h with
      | refl => exact .inl rfl
      | base hb d => exact .inr ⟨_, hb, (ih _ (C.lt k _ hb)).2 d⟩

/-- C57: `dynamic_handle_cast` succeeds iff the class of the object is the target or derives from it; the
result is a handle on the same object. Otherwise `std::bad_cast` is thrown and nothing changes. -/
theorem C57_cast_partial (C : Classes) (s : St V) (hi : Inv s) (d x o : Nat) (hx : s.hs[x]? = some (some (some o))) :
    ∃ k v, s.objs o = some (k, v) ∧
      (Derives C k d → ∃ s', castHandle C d x s = (.ok (), s') ∧ s'.hs[s.hs.length]? = some (some (some o)) ∧
        s'.objs = s.objs ∧ ∀ y, y ≠ s.hs.length → read y s' = read y s) ∧
      (¬ Derives C k d → castHandle C d x s = (.exn .badCast, s)) := by
  obtain ⟨⟨k, v⟩, hc⟩ := hi.alive o (.inl ⟨x, hx⟩)
  refine ⟨k, v, hc, fun h => ?_, fun h => ?_⟩
  · refine ⟨{ s with hs := s.hs ++ [some (some o)] }, ?_, ?_, rfl, ?_⟩
    · simp [castHandle, obj_ok.2 hx, hc, (cast_iff C d k).2 h]
    · simp
    · intro y hy
      refine read_congr ?_ fun _ _ => rfl
      show (s.hs ++ [some (some o)])[y]? = _
      rw [getElem?_snoc, if_neg hy]
  · have : ¬ C.cast k d = true := fun h' => h ((cast_iff C d k).1 h')
    simp [castHandle, obj_ok.2 hx, hc, this]

/-- C57: `dynamic_handle_extract` and `dynamic_pointer_extract` succeed iff the object is a `t` (or derived
from it) or a `Wrapper` of `t`; the latter are among the former, as `Wrapper<T,I>` derives from `T`. -/
theorem C57_extract_partial (C : Classes) (i t k : Nat) :
    (C.extract i t k = .ok () ↔ Derives C k t) ∧ (C.extract i t k = .exn .badCast ↔ ¬ Derives C k t) ∧
    (C.pointerExtract i t k = true ↔ Derives C k t) ∧
    (∀ w, C.wrapper t i = some w → Derives C k w → Derives C k t ∧ Derives C k i) := by
  have tr : ∀ {a b c}, Derives C a b → Derives C b c → Derives C a c := by
    intro a b c h
    induction h with
    | refl => exact id
    | base hb _ ih => intro h'; exact .base hb (ih h')
  have hw : ∀ w, C.wrapper t i = some w → Derives C k w → Derives C k t ∧ Derives C k i := by
    intro w hw hk
    obtain ⟨h1, h2⟩ := C.wraps t i w hw
    exact ⟨tr hk (.base h1 (.refl _)), tr hk (.base h2 (.refl _))⟩
  have hb : ∀ w, C.wrapper t i = some w → ¬ Derives C k t → C.cast k w = false := by
    intro w h1 h2
    cases h : C.cast k w with
    | false => rfl
    | true => exact absurd (hw w h1 ((cast_iff C w k).1 h)).1 h2
  by_cases hd : Derives C k t
  · have hc := (cast_iff C t k).2 hd
    refine ⟨by simp [Classes.extract, hc, hd], by simp [Classes.extract, hc, hd], by simp [Classes.pointerExtract, hc, hd], hw⟩
  · have hc : C.cast k t = false := by
      cases h : C.cast k t with
      | false => rfl
      | true => exact absurd ((cast_iff C t k).1 h) hd
    have he : C.extract i t k = .exn .badCast := by
      simp only [Classes.extract, hc]
      cases hwr : C.wrapper t i with
      | none => rfl
      | some w => simp [hb w hwr hd]
    have hp : C.pointerExtract i t k = false := by
      simp only [Classes.pointerExtract, hc]
      cases hwr : C.wrapper t i with
      | none => rfl
      | some w => simp [hb w hwr hd]
    refine ⟨by simp [he, hd], by simp [he, hd], by simp [hp, hd], hw⟩

/-- C57: the effect of `dynamic_handle_extract` on a handle: a reference to the handle's own object, or
`std::bad_cast`; nothing else changes. On an empty handle it is undefined. -/
theorem C57_extractOp_partial (C : Classes) (s : St V) (hi : Inv s) (i t x : Nat) :
    (∀ o k v, s.hs[x]? = some (some (some o)) → s.objs o = some (k, v) → Derives C k t →
      step C (.extract i t x) s = (.ok (), { s with refs := s.refs ++ [(o, true)] })) ∧
    (∀ o k v, s.hs[x]? = some (some (some o)) → s.objs o = some (k, v) → ¬ Derives C k t →
      step C (.extract i t x) s = (.exn .badCast, s)) ∧
    (s.hs[x]? = some (some none) → step C (.extract i t x) s = (.ub .nullDeref, s)) := by
  refine ⟨fun o k v hx hc hd => ?_, fun o k v hx hc hd => ?_, fun hx => ?_⟩
  · have := (C57_extract_partial C i t k).1.2 hd
    simp [step, obj_ok.2 hx, hc, this]
  · have := (C57_extract_partial C i t k).2.1.2 hd
    simp [step, obj_ok.2 hx, hc, this]
  · simp [step, obj_null hx]

/-! ## C55 -/

/-- C55: what a change through the reference of the non-const `dynamic_handle_extract` does: it is seen
through exactly the handles that share the object. -/
theorem C55_actual (C : Classes) (s : St V) (i t x o k : Nat) (w v : V) (hx : s.hs[x]? = some (some (some o)))
    (hc : s.objs o = some (k, w)) (hd : Derives C k t) :
    ∃ s1 s2, step C (.extract i t x) s = (.ok (), s1) ∧ step C (.writeRef s.refs.length v) s1 = (.ok (), s2) ∧
      (∀ y : Nat, s.hs[y]? = some (some (some o)) → read y s2 = .ok (k, v)) ∧
      (∀ y : Nat, s.hs[y]? ≠ some (some (some o)) → read y s2 = read y s) := by
  have he := (C57_extract_partial C i t k).1.2 hd
  refine ⟨{ s with refs := s.refs ++ [(o, true)] },
    { s with refs := s.refs ++ [(o, true)], objs := upd s.objs o (some (k, v)) }, ?_, ?_, ?_, ?_⟩
  · simp [step, obj_ok.2 hx, hc, he]
  · simp [step, writeObj, hc]
  · intro y hy
    exact read_eq (s := { s with refs := s.refs ++ [(o, true)], objs := upd s.objs o (some (k, v)) }) hy (upd_same _ _ _)
  · intro y hy
    refine read_congr (s := s) rfl fun q hq => ?_
    refine upd_other _ _ ?_
    rintro rfl
    exact hy hq

/-- C55 is false: in every state where two handles share an object, the change made through one is seen
through the other. -/
theorem C55_refuted (C : Classes) (s : St V) (i t x y o k : Nat) (w v : V) (hvw : v ≠ w) (_hxy : x ≠ y)
    (hx : s.hs[x]? = some (some (some o))) (hy : s.hs[y]? = some (some (some o)))
    (hc : s.objs o = some (k, w)) (hd : Derives C k t) :
    ∃ s1 s2, step C (.extract i t x) s = (.ok (), s1) ∧ step C (.writeRef s.refs.length v) s1 = (.ok (), s2) ∧
      read y s2 ≠ read y s := by
  obtain ⟨s1, s2, h1, h2, h3, _⟩ := C55_actual C s i t x o k w v hx hc hd
  refine ⟨s1, s2, h1, h2, ?_⟩
  rw [h3 y hy, read_eq hy hc]
  intro e
  injection e with e
  exact hvw (congrArg Prod.snd e)

/-- C55 holds while no other handle shares the object; for instance right after a non-const accessor. -/
theorem C55_unshared_partial (C : Classes) (s : St V) (i t x o k : Nat) (w v : V) (hx : s.hs[x]? = some (some (some o)))
    (hc : s.objs o = some (k, w)) (hd : Derives C k t) (hu : ∀ y : Nat, y ≠ x → s.hs[y]? ≠ some (some (some o))) :
    ∃ s1 s2, step C (.extract i t x) s = (.ok (), s1) ∧ step C (.writeRef s.refs.length v) s1 = (.ok (), s2) ∧
      read x s2 = .ok (k, v) ∧ ∀ y, y ≠ x → read y s2 = read y s := by
  obtain ⟨s1, s2, h1, h2, h3, h4⟩ := C55_actual C s i t x o k w v hx hc hd
  exact ⟨s1, s2, h1, h2, h3 x hx, fun y hy => h4 y (hu y hy)⟩

/-- C55: a non-const accessor makes the object unshared. -/
theorem C55_after_ref_partial (C : Classes) (s : St V) (hi : Inv s) (x o : Nat) (hx : s.hs[x]? = some (some (some o))) :
    ∃ s1 n, step C (.ref x none) s = (.ok (), s1) ∧ s1.hs[x]? = some (some (some n)) ∧
      ∀ y : Nat, y ≠ x → s1.hs[y]? ≠ some (some (some n)) := by
  obtain ⟨cv, hc⟩ := hi.alive o (.inl ⟨x, hx⟩)
  refine ⟨{ uniqueSt x o cv s with refs := (uniqueSt x o cv s).refs ++ [(s.next, true)] }, s.next, ?_, ?_, ?_⟩
  · simp only [step, makeUnique_ok hx hc]
  · exact (uniqueSt_hs hx x).trans (if_pos rfl)
  · intro y hy h
    rw [show ({ uniqueSt x o cv s with refs := (uniqueSt x o cv s).refs ++ [(s.next, true)] } : St V).hs[y]? = s.hs[y]?
      from (uniqueSt_hs hx y).trans (if_neg hy)] at h
    obtain ⟨cv', hc'⟩ := hi.alive s.next (.inl ⟨y, h⟩)
    have := hi.lt _ _ hc'
    omega

/-! ## C56 -/

/-- C56 is false: in every state, a reference obtained from a handle by a non-const accessor dangles as soon
as a non-const accessor of the same handle is called again, though the handle was neither assigned,
moved from nor destroyed: the object is replaced by a clone and deleted. Using the reference is then
undefined. -/
theorem C56_refuted (C : Classes) (s : St V) (hi : Inv s) (x o : Nat) (hx : s.hs[x]? = some (some (some o))) (v : V) :
    ∃ s1 s2, step C (.ref x none) s = (.ok (), s1) ∧ step C (.ref x none) s1 = (.ok (), s2) ∧
      step C (.writeRef s.refs.length v) s1 ≠ (.ub .dangling, s1) ∧
      step C (.writeRef s.refs.length v) s2 = (.ub .dangling, s2) := by
  obtain ⟨cv, hc⟩ := hi.alive o (.inl ⟨x, hx⟩)
  have hlr : (uniqueSt x o cv s).refs = s.refs := by simp [uniqueSt]
  let s1 : St V := { uniqueSt x o cv s with refs := s.refs ++ [(s.next, true)] }
  have e1 : step C (.ref x none) s = (.ok (), s1) := by
    simp only [step, makeUnique_ok hx hc, hlr]; rfl
  have i1 : Inv s1 := by have := step_inv (C := C) hi (.ref x none); rw [e1] at this; exact this
  have hx1 : s1.hs[x]? = some (some (some s.next)) := (uniqueSt_hs hx x).trans (if_pos rfl)
  have hc1 : s1.objs s.next = some cv := uniqueSt_new hx
  have hn1 : s1.next = s.next + 1 := by show (uniqueSt x o cv s).next = _; simp [uniqueSt]
  have hlr1 : (uniqueSt x s.next cv s1).refs = s.refs ++ [(s.next, true)] := by simp [uniqueSt]; rfl
  let s2 : St V := { uniqueSt x s.next cv s1 with refs := s.refs ++ [(s.next, true)] ++ [(s1.next, true)] }
  have e2 : step C (.ref x none) s1 = (.ok (), s2) := by
    simp only [step, makeUnique_ok hx1 hc1, hlr1]; rfl
  refine ⟨s1, s2, e1, e2, ?_, ?_⟩
  · have hr : s1.refs[s.refs.length]? = some (s.next, true) := by
      show (s.refs ++ [(s.next, true)])[s.refs.length]? = _; simp
    simp [step, hr, writeObj, hc1]
  · have hr : s2.refs[s.refs.length]? = some (s.next, true) := by
      show (s.refs ++ [(s.next, true)] ++ [(s1.next, true)])[s.refs.length]? = _; simp
    have hgone : s2.objs s.next = none := by
      refine drop_objs_gone ?_
      rintro (⟨y, hy⟩ | ⟨p, hp⟩)
      · simp only at hy
        rw [getElem?_set_lt (lt_of_hs hx1)] at hy
        split at hy
        · injection hy with hy; injection hy with hy; injection hy with hy; omega
        · rename_i e
          have : s1.hs[y]? = s.hs[y]? := (uniqueSt_hs hx y).trans (if_neg e)
          rw [this] at hy
          obtain ⟨cv', hc'⟩ := hi.alive s.next (.inl ⟨y, hy⟩)
          have := hi.lt _ _ hc'; omega
      · have hps : s1.ps = s.ps := by show (uniqueSt x o cv s).ps = _; simp [uniqueSt]
        simp only [hps] at hp
        obtain ⟨cv', hc'⟩ := hi.alive s.next (.inr ⟨p, hp⟩)
        have := hi.lt _ _ hc'; omega
    simp [step, hr, writeObj, hgone]

/-- The operation may replace the object of handle `x`. -/
def touches (x : Nat) : Op V → Bool
  | .move y => y == x
  | .assign y _ => y == x
  | .moveAssign y z => y == x || z == x
  | .destroy y => y == x
  | .ref y _ => y == x
  | .managed y _ => y == x
  | _ => false

theorem makeUnique_hs (fail : Option Exn) (s : St V) {x y : Nat} (h : y ≠ x) : (makeUnique fail x s).2.hs[y]? = s.hs[y]? := by
  unfold makeUnique
  cases ho : s.obj x with
  | ok o =>
    simp only
    cases fail with
    | some e => rfl
    | none =>
      cases hc : s.objs o with
      | none => rfl
      | some cv =>
        simp only [drop_hs]
        rw [getElem?_set_lt (lt_of_hs (obj_ok.1 ho)), if_neg h]
  | exn e => rfl
  | ub u => rfl
  | abort => rfl

theorem writeObj_hs (o : Nat) (v : V) (s : St V) : (writeObj o v s).2.hs = s.hs := by
  unfold writeObj; split <;> rfl

theorem step_hs (C : Classes) (s : St V) {op : Op V} {x : Nat} (hx : x < s.hs.length) (ht : touches x op = false) :
    (step C op s).2.hs[x]? = s.hs[x]? := by
  cases op with
  | create c v => simp only [step, create]; rw [getElem?_snoc, if_neg (by omega)]
  | null => simp only [step]; rw [getElem?_snoc, if_neg (by omega)]
  | fromPtr p =>
    simp only [step]
    split
    · rfl
    · simp only; rw [getElem?_snoc, if_neg (by omega)]
  | copy y =>
    simp only [step]
    split
    · simp only; rw [getElem?_snoc, if_neg (by omega)]
    · rfl
  | move y =>
    simp only [touches, beq_eq_false_iff_ne] at ht
    simp only [step]
    split
    · rename_i q hq
      simp only
      rw [getElem?_snoc, List.length_set, if_neg (by omega), getElem?_set_lt (lt_of_hs (get_ok.1 hq)), if_neg (fun e => ht e.symm)]
    · rfl
  | assign a b =>
    simp only [touches, beq_eq_false_iff_ne] at ht
    simp only [step]
    split
    · rename_i p q hp hq
      simp only [drop_hs]
      rw [getElem?_set_lt (lt_of_hs (get_ok.1 hp)), if_neg (fun e => ht e.symm)]
    · rfl
  | moveAssign a b =>
    simp only [touches, Bool.or_eq_false_iff, beq_eq_false_iff_ne] at ht
    simp only [step]
    split
    · rename_i p q hp hq
      split
      · rfl
      · simp only [drop_hs]
        rw [getElem?_set_lt (by rw [List.length_set]; exact lt_of_hs (get_ok.1 hq)), if_neg (fun e => ht.2 e.symm),
          getElem?_set_lt (lt_of_hs (get_ok.1 hp)), if_neg (fun e => ht.1 e.symm)]
    · rfl
  | destroy a =>
    simp only [touches, beq_eq_false_iff_ne] at ht
    simp only [step]
    split
    · rename_i p hp
      simp only [drop_hs]
      rw [getElem?_set_lt (lt_of_hs (get_ok.1 hp)), if_neg (fun e => ht e.symm)]
    · rfl
  | ref a f =>
    simp only [touches, beq_eq_false_iff_ne] at ht
    have := makeUnique_hs f s (x := a) (y := x) (fun e => ht e.symm)
    simp only [step]
    generalize makeUnique f a s = r at this ⊢
    obtain ⟨r1, s'⟩ := r
    cases r1 <;> exact this
  | cref a => simp only [step]; split <;> rfl
  | managed a f =>
    simp only [touches, beq_eq_false_iff_ne] at ht
    have := makeUnique_hs f s (x := a) (y := x) (fun e => ht e.symm)
    simp only [step]
    generalize makeUnique f a s = r at this ⊢
    obtain ⟨r1, s'⟩ := r
    cases r1 <;> exact this
  | cmanaged a => simp only [step]; split <;> rfl
  | resetPtr p =>
    simp only [step]
    split
    · rfl
    · simp only [drop_hs]
  | extract i t a =>
    simp only [step]
    split
    · split
      · rfl
      · split <;> rfl
    · rfl
    · rfl
    · rfl
  | writeRef r v =>
    simp only [step]
    split
    · rw [writeObj_hs]
    · rfl
  | writePtr p v =>
    simp only [step]
    split
    · rw [writeObj_hs]
    · rfl
    · rfl

/-- C56: a reference stays valid and keeps denoting the handle's object in any history, of whatever other
handles, client pointers and references do, that does not assign to, move from or destroy the handle and
does not call its non-const accessors. `o` is the object the reference denotes. -/
theorem C56_partial (C : Classes) (x o : Nat) : ∀ (ops : List (Op V)) (s : St V), Inv s →
    s.hs[x]? = some (some (some o)) → (∀ op ∈ ops, touches x op = false) →
    (run C ops s).2.hs[x]? = some (some (some o)) ∧ ∃ cv, (run C ops s).2.objs o = some cv := by
  intro ops
  induction ops with
  | nil => intro s hi hx _; exact ⟨hx, hi.alive o (.inl ⟨x, hx⟩)⟩
  | cons op ops ih =>
    intro s hi hx ht
    have hx1 : (step C op s).2.hs[x]? = some (some (some o)) := by
      rw [step_hs C s (lt_of_hs hx) (ht op List.mem_cons_self)]; exact hx
    have hi1 := step_inv (C := C) hi op
    have := ih (step C op s).2 hi1 hx1 fun o' ho' => ht o' (List.mem_cons_of_mem _ ho')
    rw [run]
    generalize step C op s = r at hx1 hi1 this
    obtain ⟨r1, s'⟩ := r
    cases r1 with
    | ub u => exact ⟨hx1, hi1.alive o (.inl ⟨x, hx1⟩)⟩
    | ok a => exact this
    | exn e => exact this
    | abort => exact this

/-- C56: the references given out denote the handle's object at that time. -/
theorem C56_obtained (C : Classes) (s : St V) (hi : Inv s) (x o : Nat) (hx : s.hs[x]? = some (some (some o))) :
    (∃ s1, step C (.cref x) s = (.ok (), s1) ∧ s1.hs = s.hs ∧ s1.refs = s.refs ++ [(o, false)]) ∧
    (∃ s1 n, step C (.ref x none) s = (.ok (), s1) ∧ s1.hs[x]? = some (some (some n)) ∧ s1.refs = s.refs ++ [(n, true)]) := by
  obtain ⟨cv, hc⟩ := hi.alive o (.inl ⟨x, hx⟩)
  refine ⟨⟨{ s with refs := s.refs ++ [(o, false)] }, by simp [step, obj_ok.2 hx], rfl, rfl⟩,
    ⟨{ uniqueSt x o cv s with refs := (uniqueSt x o cv s).refs ++ [(s.next, true)] }, s.next, ?_, ?_, ?_⟩⟩
  · simp only [step, makeUnique_ok hx hc]
  · exact (uniqueSt_hs hx x).trans (if_pos rfl)
  · simp [uniqueSt]

/-- Classes: 0 an interface, 1 and 2 deriving from it, 3 deriving from 1, 4 = Wrapper<2,0>. -/
def classes : Classes where
  bases k := if k = 1 ∨ k = 2 then [0] else if k = 3 then [1] else if k = 4 then [0, 2] else []
  lt := by
    intro k b h
    split at h
    · simp at h; omega
    · split at h
      · simp at h; omega
      · split at h
        · simp at h; omega
        · simp at h
  wrapper t i := if t = 2 ∧ i = 0 then some 4 else none
  wraps := by
    intro t i w h
    split at h
    · cases h; rename_i h; obtain ⟨rfl, rfl⟩ := h; decide
    · cases h

example : classes.cast 3 0 = true ∧ classes.cast 3 2 = false ∧ classes.extract 0 2 4 = .ok () ∧
    classes.extract 0 1 4 = .exn .badCast := by decide +kernel

/-- C55, concrete: h1 = h0; a change of h0 through dynamic_handle_extract is seen in h1. -/
example : (read 1 (run classes [.create 3 10, .copy 0, .extract 0 1 0, .writeRef 0 99] (St.init : St Nat)).2) = .ok (3, 99) := by
  decide +kernel

/-- C54, concrete: the same change through `reference()` is not. -/
example : (let s := (run classes [.create 3 10, .copy 0, .ref 0 none, .writeRef 0 99] (St.init : St Nat)).2
    (read 0 s, read 1 s)) = (.ok (3, 99), .ok (3, 10)) := by
  decide +kernel

/-- C56, concrete. -/
example : (run classes [.create 3 10, .ref 0 none, .ref 0 none, .writeRef 0 99] (St.init : St Nat)).1 = .ub .dangling := by
  decide +kernel

end Helper.Handle
