import Verif.Handle.Hierarchy
/-!
# Property C131: where casts of handles lead in all class hierarchies
-/
set_option linter.unusedSectionVars false
namespace Helper.Handle.Hierarchy

variable {H : Hier} {k t : Nat} {s x : Sub}

/-- First case of [expr.dynamic.cast]/8: `s` is a public base of `x`, an object of class `t`, and of no
other object of that class a base. -/
def Down (H : Hier) (k : Nat) (s : Sub) (t : Nat) (x : Sub) : Prop :=
  Part H (whole k) x ∧ x.cls = t ∧ Pub H x s ∧ ∀ y, Part H (whole k) y → y.cls = t → Part H y s → y = x

/-- Second case: `s` is a public base of the whole object, and `x` is the only object of class `t` in it,
and is public. -/
def Across (H : Hier) (k : Nat) (s : Sub) (t : Nat) (x : Sub) : Prop :=
  Pub H (whole k) s ∧ Pub H (whole k) x ∧ x.cls = t ∧ Once H k t

theorem cross_some : H.cross k s t = some x ↔ Across H k s t x := by
  unfold Hier.cross Across
  constructor
  · intro h
    split at h
    · rename_i hs
      split at h
      · rename_i y hy
        rw [only_some] at hy
        split at h
        · rename_i hp
          cases h
          have h1 := List.mem_filter.1 hy.1
          refine ⟨mem_parts_true.1 hs, mem_parts_true.1 hp, beq_iff_eq.1 h1.2, ?_⟩
          intro a b ha hb hat hbt
          rw [hy.2 a (List.mem_filter.2 ⟨mem_parts_false.2 ha, beq_iff_eq.2 hat⟩),
            hy.2 b (List.mem_filter.2 ⟨mem_parts_false.2 hb, beq_iff_eq.2 hbt⟩)]
        · cases h
      · cases h
    · cases h
  · rintro ⟨h1, h2, h3, h4⟩
    rw [if_pos (mem_parts_true.2 h1)]
    have : only ((H.parts false (whole k)).filter fun x => x.cls == t) = some x := by
      rw [only_some]
      refine ⟨List.mem_filter.2 ⟨mem_parts_false.2 h2.part, beq_iff_eq.2 h3⟩, fun b hb => ?_⟩
      have hb' := List.mem_filter.1 hb
      exact h4 b x (mem_parts_false.1 hb'.1) h2.part (beq_iff_eq.1 hb'.2) h3
    rw [this]
    exact if_pos (mem_parts_true.2 h2)

theorem mem_above {y : Sub} : y ∈ (H.parts false (whole k)).filter (fun x => x.cls == t && decide (s ∈ H.parts false x)) ↔
    Part H (whole k) y ∧ y.cls = t ∧ Part H y s := by
  rw [List.mem_filter, mem_parts_false, Bool.and_eq_true, beq_iff_eq, decide_eq_true_eq, mem_parts_false]

/-- `dynamic_cast` at run time is what the standard says. -/
theorem C131_dynamic : H.dynCast k s t = some x ↔
    Down H k s t x ∨ (¬ ∃ y, Down H k s t y) ∧ Across H k s t x := by
  unfold Hier.dynCast
  split
  · rename_i y hy
    rw [only_some] at hy
    have h1 := mem_above.1 hy.1
    split
    · rename_i hp
      have hd : Down H k s t y := ⟨h1.1, h1.2.1, mem_parts_true.1 hp, fun z a b c => hy.2 z (mem_above.2 ⟨a, b, c⟩)⟩
      constructor
      · rintro ⟨⟩
        exact .inl hd
      · rintro (h | h)
        · rw [hy.2 x (mem_above.2 ⟨h.1, h.2.1, h.2.2.1.part⟩)]
        · exact absurd ⟨y, hd⟩ h.1
    · rename_i hp
      have hn : ¬ ∃ z, Down H k s t z := by
        rintro ⟨z, hz⟩
        have := hy.2 z (mem_above.2 ⟨hz.1, hz.2.1, hz.2.2.1.part⟩)
        subst this
        exact hp (mem_parts_true.2 hz.2.2.1)
      rw [cross_some]
      constructor
      · intro h; exact .inr ⟨hn, h⟩
      · rintro (h | h)
        · exact absurd ⟨x, h⟩ hn
        · exact h.2
  · rename_i hy
    rw [only_none] at hy
    have hn : ¬ ∃ z, Down H k s t z := by
      rintro ⟨z, hz⟩
      obtain ⟨b, hb, hne⟩ := hy z (mem_above.2 ⟨hz.1, hz.2.1, hz.2.2.1.part⟩)
      have hb' := mem_above.1 hb
      exact hne (hz.2.2.2 b hb'.1 hb'.2.1 hb'.2.2)
    rw [cross_some]
    constructor
    · intro h; exact .inr ⟨hn, h⟩
    · rintro (h | h)
      · exact absurd ⟨x, h⟩ hn
      · exact h.2

theorem occurs_iff : t ∈ (H.parts false (whole k)).map Sub.cls ↔ Occurs H k t := by
  rw [List.mem_map]
  constructor
  · rintro ⟨x, hx, e⟩; exact ⟨x, mem_parts_false.1 hx, e⟩
  · rintro ⟨x, hx, e⟩; exact ⟨x, mem_parts_false.2 hx, e⟩

/-- The base `t` of the class of `s`, unambiguous and public. -/
theorem C131_up (hne : t ≠ s.cls) (ho : Occurs H s.cls t) :
    H.castPtr k s t ≠ .null ∧
    (H.castPtr k s t = .to x ↔ Once H s.cls t ∧ Pub H s x ∧ x.cls = t) := by
  unfold Hier.castPtr
  rw [if_neg hne, if_pos (occurs_iff.2 ho)]
  split
  · rename_i y hy
    rw [only_some] at hy
    have h1 := List.mem_filter.1 hy.1
    have honce : Once H s.cls t := by
      intro a b ha hb hat hbt
      rw [hy.2 a (List.mem_filter.2 ⟨mem_parts_false.2 ha, beq_iff_eq.2 hat⟩),
        hy.2 b (List.mem_filter.2 ⟨mem_parts_false.2 hb, beq_iff_eq.2 hbt⟩)]
    split
    · rename_i hp
      refine ⟨by simp, ?_⟩
      constructor
      · rintro ⟨⟩
        refine ⟨honce, has_iff_inside.2 ⟨y, rfl, mem_parts_true.1 hp⟩, ?_⟩
        rw [inside_cls]; exact beq_iff_eq.1 h1.2
      · rintro ⟨_, h2, h3⟩
        obtain ⟨z, rfl, hz⟩ := has_iff_inside.1 h2
        rw [inside_cls] at h3
        rw [honce y z (mem_parts_false.1 h1.1) hz.part (beq_iff_eq.1 h1.2) h3]
    · rename_i hp
      refine ⟨by simp, ?_⟩
      constructor
      · intro h; cases h
      · rintro ⟨_, h2, h3⟩
        obtain ⟨z, rfl, hz⟩ := has_iff_inside.1 h2
        rw [inside_cls] at h3
        rw [honce y z (mem_parts_false.1 h1.1) hz.part (beq_iff_eq.1 h1.2) h3] at hp
        exact absurd (mem_parts_true.2 hz) hp
  · rename_i hy
    rw [only_none] at hy
    refine ⟨by simp, ?_⟩
    constructor
    · intro h; cases h
    · rintro ⟨h1, h2, h3⟩
      obtain ⟨z, rfl, hz⟩ := has_iff_inside.1 h2
      rw [inside_cls] at h3
      obtain ⟨b, hb, hne'⟩ := hy z (List.mem_filter.2 ⟨mem_parts_false.2 hz.part, beq_iff_eq.2 h3⟩)
      have hb' := List.mem_filter.1 hb
      exact absurd (h1 b z (mem_parts_false.1 hb'.1) hz.part (beq_iff_eq.1 hb'.2) h3) hne'

theorem castPtr_self : H.castPtr k s s.cls = .to s := if_pos rfl

/-- A class that is neither the static type nor a base of it is looked for at run time. -/
theorem castPtr_dyn (ho : ¬ Occurs H s.cls t) :
    H.castPtr k s t ≠ .illFormed ∧ (H.castPtr k s t = .to x ↔ H.dynCast k s t = some x) := by
  have hne : t ≠ s.cls := fun h => ho ⟨whole s.cls, .refl _, h.symm⟩
  unfold Hier.castPtr
  rw [if_neg hne, if_neg (fun h => ho (occurs_iff.1 h))]
  split <;> simp_all

/-- A base of `s` is a base of its class. -/
theorem occurs_of_part (h : Part H s x) : Occurs H s.cls x.cls := by
  obtain ⟨y, rfl, hy⟩ := has_iff_inside.1 h
  exact ⟨y, hy, (inside_cls _ _).symm⟩

/-- What a cast returns is a subobject of the object, of the class asked for. -/
theorem C131_object (hs : Part H (whole k) s) (h : H.castPtr k s t = .to x) : Part H (whole k) x ∧ x.cls = t := by
  by_cases he : t = s.cls
  · subst he
    rw [castPtr_self] at h
    cases h
    exact ⟨hs, rfl⟩
  · by_cases ho : Occurs H s.cls t
    · have := (C131_up (k := k) he ho).2.1 h
      exact ⟨hs.trans this.2.1.part, this.2.2⟩
    · rcases C131_dynamic.1 ((castPtr_dyn ho).2.1 h) with h | ⟨_, h⟩
      · exact ⟨h.1, h.2.1⟩
      · exact ⟨h.2.1.part, h.2.2.1⟩

/-- What occurs once in the object occurs at most once in a subobject. -/
theorem once_of_whole (hs : Part H (whole k) s) (h : Once H k t) : Once H s.cls t := by
  intro a b ha hb hat hbt
  apply inside_inj hs ha hb
  exact h _ _ (hs.trans (has_iff_inside.2 ⟨a, rfl, ha⟩)) (hs.trans (has_iff_inside.2 ⟨b, rfl, hb⟩))
    (by rw [inside_cls]; exact hat) (by rw [inside_cls]; exact hbt)

/-- In an object of which all bases are public, each base of a subobject is public. -/
theorem pub_of_allPublic (hp : ∀ y, Part H (whole k) y → ∀ b, b ∈ H.bases y.cls → b.pub = true) (hs : Part H (whole k) s)
    (h : Part H s x) : Pub H s x := by
  induction h with
  | refl => exact .refl _
  | step b hb _ _ ih =>
    exact .step b hb (hp _ hs b hb) (ih (hs.trans (.step b hb trivial (.refl _))))

/-- All bases named in the classes that objects of class `k` consist of are public. -/
def AllPublic (H : Hier) (k : Nat) : Prop := ∀ y, Part H (whole k) y → ∀ b, b ∈ H.bases y.cls → b.pub = true

/-- If all bases are public and none is repeated, a cast succeeds for exactly the classes that the class of
the object derives from, and leads to the subobject of that class, wherever it starts from. -/
theorem C131_regular_partial (hp : AllPublic H k) (ho : ∀ t, Once H k t) (hs : Part H (whole k) s) :
    (H.castPtr k s t = .to x ↔ Part H (whole k) x ∧ x.cls = t) ∧
    (H.castPtr k s t = .null ↔ ¬ Occurs H k t) ∧ H.castPtr k s t ≠ .illFormed := by
  have main : ∀ x, Part H (whole k) x → x.cls = t → H.castPtr k s t = .to x := by
    intro x hx hxt
    by_cases he : t = s.cls
    · have := ho t x s hx hs hxt he.symm
      subst this
      rw [he, castPtr_self]
    · by_cases hoc : Occurs H s.cls t
      · refine (C131_up he hoc).2.2 ⟨once_of_whole hs (ho t), ?_, hxt⟩
        obtain ⟨y, hy, hyt⟩ := hoc
        have hin : Part H s (s.inside y) := has_iff_inside.2 ⟨y, rfl, hy⟩
        rw [ho t x (s.inside y) hx (hs.trans hin) hxt (by rw [inside_cls]; exact hyt)]
        exact pub_of_allPublic hp hs hin
      · refine (castPtr_dyn hoc).2.2 (C131_dynamic.2 ?_)
        by_cases hd : ∃ y, Down H k s t y
        · obtain ⟨y, hy⟩ := hd
          rw [ho t x y hx hy.1 hxt hy.2.1]
          exact .inl hy
        · exact .inr ⟨hd, pub_of_allPublic hp (.refl _) hs, pub_of_allPublic hp (.refl _) hx, hxt, ho t⟩
  have hto : ∀ x, H.castPtr k s t = .to x → Part H (whole k) x ∧ x.cls = t := fun x h => C131_object hs h
  have hill : H.castPtr k s t ≠ .illFormed := by
    intro h
    by_cases he : t = s.cls
    · subst he; rw [castPtr_self] at h; cases h
    · by_cases hoc : Occurs H s.cls t
      · obtain ⟨y, hy, hyt⟩ := hoc
        have hin : Part H s (s.inside y) := has_iff_inside.2 ⟨y, rfl, hy⟩
        rw [main _ (hs.trans hin) (by rw [inside_cls]; exact hyt)] at h
        cases h
      · exact (castPtr_dyn (x := s) hoc).1 h
  refine ⟨⟨hto x, fun h => main x h.1 h.2⟩, ⟨?_, ?_⟩, hill⟩
  · rintro h ⟨y, hy, hyt⟩
    rw [main y hy hyt] at h
    cases h
  · intro h
    cases e : H.castPtr k s t with
    | null => rfl
    | illFormed => exact absurd e hill
    | to y => exact absurd ⟨y, hto y e⟩ h

/-- The model of C57 is this one for such classes: `Classes.cast` says whether a class derives from another. -/
theorem C131_classes (C : Classes) (hC : ∀ k, C.bases k = (H.bases k).map Base.cls) : C.cast k t = true ↔ Occurs H k t := by
  have key : ∀ n k, k < n → (C.cast k t = true ↔ ∃ y, Part H (whole k) y ∧ y.cls = t) := by
    intro n
    induction n with
    | zero => intro k h; omega
    | succ n ih =>
      intro k hk
      rw [Classes.cast, Bool.or_eq_true, beq_iff_eq, List.any_eq_true]
      constructor
      · rintro (rfl | ⟨⟨b, hb⟩, _, h⟩)
        · exact ⟨whole k, .refl _, rfl⟩
        · have hlt := C.lt _ _ hb
          rw [hC] at hb
          obtain ⟨b', hb', rfl⟩ := List.mem_map.1 hb
          obtain ⟨y, hy, hyt⟩ := (ih b'.cls (by omega)).1 h
          have hy' : Part H ((whole k).base b') ((whole k).base b' |>.inside y) :=
            has_iff_inside.2 ⟨y, rfl, by rw [base_cls]; exact hy⟩
          exact ⟨_, .step b' hb' trivial hy', by rw [inside_cls]; exact hyt⟩
      · rintro ⟨y, hy, hyt⟩
        cases hy with
        | refl => exact .inl hyt
        | step b hb _ hy =>
          refine .inr ⟨⟨b.cls, by rw [hC]; exact List.mem_map_of_mem hb⟩, List.mem_attach _ _, ?_⟩
          have hlt := H.lt _ _ hb
          have hlt' : b.cls < k := hlt
          obtain ⟨z, rfl, hz⟩ := has_iff_inside.1 hy
          rw [base_cls] at hz
          rw [inside_cls] at hyt
          exact (ih b.cls (by omega)).2 ⟨z, hz, hyt⟩
  exact key (k + 1) k (Nat.lt_succ_self _)

/-- There and back: if the class the handle is for occurs once in the object, the cast back leads to where
the first one started from, unless the second class has the first one as a base that is not public, in
which case it does not compile. -/
theorem C131_back_partial (hs : Part H (whole k) s) (ho : Once H k s.cls) (h : H.castPtr k s t = .to x) :
    H.castPtr k x s.cls = .to s ∨ H.castPtr k x s.cls = .illFormed ∧ Part H x s ∧ ¬ Pub H x s := by
  obtain ⟨hx, rfl⟩ := C131_object hs h
  by_cases he : s.cls = x.cls
  · have := ho x s hx hs he.symm rfl
    subst this
    exact .inl castPtr_self
  · have he' : x.cls ≠ s.cls := fun h => he h.symm
    by_cases hback : Occurs H x.cls s.cls
    · -- `s.cls` is a base of `x.cls`, and so `s` of `x`
      obtain ⟨y, hy, hyt⟩ := hback
      have hin : Part H x (x.inside y) := has_iff_inside.2 ⟨y, rfl, hy⟩
      have hxs : Part H x s := by
        rw [ho s (x.inside y) hs (hx.trans hin) rfl (by rw [inside_cls]; exact hyt)]
        exact hin
      have hup := C131_up (k := k) (s := x) (x := s) he ⟨y, hy, hyt⟩
      by_cases hpub : Pub H x s
      · exact .inl (hup.2.2 ⟨once_of_whole hx ho, hpub, rfl⟩)
      · right
        refine ⟨?_, hxs, hpub⟩
        cases e : H.castPtr k x s.cls with
        | illFormed => rfl
        | null => exact absurd e hup.1
        | to z =>
          have hz := (C131_up (k := k) (s := x) (x := z) he ⟨y, hy, hyt⟩).2.1 e
          rw [ho z s (hx.trans hz.2.1.part) hs hz.2.2 rfl] at hz
          exact absurd hz.2.1 hpub
    · left
      refine (castPtr_dyn hback).2.2 (C131_dynamic.2 ?_)
      by_cases hup : Occurs H s.cls x.cls
      · have := (C131_up (k := k) he' hup).2.1 h
        exact .inl ⟨hs, rfl, this.2.1, fun y hy hyt _ => ho y s hy hs hyt rfl⟩
      · rcases C131_dynamic.1 ((castPtr_dyn hup).2.1 h) with hd | ⟨_, hc⟩
        · exact absurd (occurs_of_part hd.2.2.1.part) hback
        · refine .inr ⟨?_, hc.2.1, hc.1, rfl, ho⟩
          rintro ⟨y, hy⟩
          have := occurs_of_part hy.2.2.1.part
          rw [hy.2.1] at this
          exact hup this

/-! ## `dynamic_handle_extract` -/

variable {i w : Nat}

theorem Wraps.lt (hw : H.Wraps t i w) : t < w ∧ i < w := by
  unfold Hier.Wraps at hw
  exact ⟨H.lt w ⟨t, false, true⟩ (by rw [hw]; simp), H.lt w ⟨i, true, true⟩ (by rw [hw]; simp)⟩

/-- The `T` of a wrapper. -/
theorem Wraps.pub (hw : H.Wraps t i w) {y : Sub} (hy : y.cls = w) : Pub H y ⟨t, w :: y.via⟩ ∧ Pub H y (whole i) := by
  unfold Hier.Wraps at hw
  constructor
  · refine .step ⟨t, false, true⟩ (by rw [hy, hw]; simp) rfl ?_
    simp only [Sub.base, hy]
    exact .refl _
  · refine .step ⟨i, true, true⟩ (by rw [hy, hw]; simp) rfl ?_
    exact .refl _

theorem Wraps.once_iff (hw : H.Wraps t i w) : Once H w t ↔ ¬ Occurs H i t := by
  have hlt := Wraps.lt hw
  constructor
  · rintro h ⟨z, hz, hzt⟩
    have h1 : Part H (whole w) z := (Wraps.pub (y := whole w) hw rfl).2.part.trans hz
    have := h z ⟨t, [w]⟩ h1 (Wraps.pub (y := whole w) hw rfl).1.part hzt rfl
    subst this
    obtain ⟨v, hv, _, hv2⟩ := last_of_part hz
    simp at hv
    omega
  · intro h
    have key : ∀ x, Part H (whole w) x → x.cls = t → x = ⟨t, [w]⟩ := by
      intro x hx hxt
      cases hx with
      | refl => simp only [whole] at hxt; omega
      | step b hb _ hx =>
        have hb' : b ∈ H.bases w := hb
        rw [show H.bases w = _ from hw] at hb'
        simp only [List.mem_cons, List.not_mem_nil, or_false] at hb'
        rcases hb' with rfl | rfl
        · exact absurd ⟨x, hx, hxt⟩ h
        · exact hx.eq_of_cls hxt
    intro a b ha hb hat hbt
    rw [key a ha hat, key b hb hbt]

/-- The conversion of a pointer to the wrapper to one to its `T`. -/
theorem Wraps.conv (hw : H.Wraps t i w) (ho : ¬ Occurs H i t) {y : Sub} (hy : y.cls = w) : H.castPtr k y t = .to ⟨t, w :: y.via⟩ := by
  have hlt := Wraps.lt hw
  have hp := (Wraps.pub hw hy).1
  subst hy
  have hne : t ≠ y.cls := by omega
  exact (C131_up hne (occurs_of_part hp.part)).2.2 ⟨(Wraps.once_iff hw).2 ho, hp, rfl⟩

/-- `dynamic_handle_extract<T>` compiles exactly if `T` is neither the interface nor a base of it: for
these the pointer to the wrapper cannot be converted to one to `T`. -/
theorem C131_compiles (hw : H.Wraps t s.cls w) : H.extract k s t w ≠ .illFormed ↔ ¬ Occurs H s.cls t := by
  have hlt := Wraps.lt hw
  constructor
  · intro h ho
    apply h
    have hill : H.castPtr w (whole w) t = .illFormed := by
      have hp := (Wraps.pub (y := whole w) hw rfl).1
      have hne : t ≠ (whole w).cls := by simp only [whole]; omega
      cases e : H.castPtr w (whole w) t with
      | illFormed => rfl
      | null => exact absurd e (C131_up (x := s) hne (occurs_of_part hp.part)).1
      | to z => exact absurd ho ((Wraps.once_iff hw).1 ((C131_up hne (occurs_of_part hp.part)).2.1 e).1)
    unfold Hier.extract
    rw [hill]
    cases H.castPtr k s t <;> rfl
  · intro ho h
    unfold Hier.extract at h
    rw [Wraps.conv hw ho (y := whole w) rfl] at h
    have h1 := (castPtr_dyn (k := k) (x := s) ho).1
    revert h
    cases e : H.castPtr k s t with
    | illFormed => exact absurd e h1
    | to z => intro h; cases h
    | null =>
      have hwo : ¬ Occurs H s.cls w := by
        rintro ⟨z, hz, hzw⟩
        have := hz.le
        simp only [whole] at this
        omega
      intro h
      revert h
      cases e2 : H.castPtr k s w with
      | illFormed => exact absurd e2 (castPtr_dyn (k := k) (x := s) hwo).1
      | null => intro h; cases h
      | to y =>
        have hy : y.cls = w := by
          rcases C131_dynamic.1 ((castPtr_dyn hwo).2.1 e2) with h | ⟨_, h⟩
          · exact h.2.1
          · exact h.2.2.1
        simp only [Wraps.conv hw ho hy]
        intro h; cases h

/-- What it returns: the `T` found by `dynamic_cast`, otherwise that of the `Wrapper<T,I>` found so. -/
theorem C131_extract (hw : H.Wraps t s.cls w) (ho : ¬ Occurs H s.cls t) :
    (H.extract k s t w = .to x ↔ H.dynCast k s t = some x ∨
      H.dynCast k s t = none ∧ ∃ y, H.dynCast k s w = some y ∧ x = ⟨t, w :: y.via⟩) ∧
    (H.extract k s t w = .null ↔ H.dynCast k s t = none ∧ H.dynCast k s w = none) := by
  have hlt := Wraps.lt hw
  have hwo : ¬ Occurs H s.cls w := by
    rintro ⟨z, hz, hzw⟩
    have := hz.le
    simp only [whole] at this
    omega
  have hc : ∀ u, ¬ Occurs H s.cls u → H.castPtr k s u = match H.dynCast k s u with | some x => .to x | none => .null := by
    intro u hu
    have hne : u ≠ s.cls := fun h => hu ⟨whole s.cls, .refl _, h.symm⟩
    unfold Hier.castPtr
    rw [if_neg hne, if_neg (fun h => hu (occurs_iff.1 h))]
    cases H.dynCast k s u <;> rfl
  have hy : ∀ y, H.dynCast k s w = some y → y.cls = w := by
    intro y e
    rcases C131_dynamic.1 e with h | ⟨_, h⟩
    · exact h.2.1
    · exact h.2.2.1
  unfold Hier.extract
  rw [Wraps.conv hw ho (y := whole w) rfl, hc t ho, hc w hwo]
  cases e1 : H.dynCast k s t with
  | some z => simp
  | none =>
    cases e2 : H.dynCast k s w with
    | none => simp
    | some y => simp [Wraps.conv hw ho (hy y e2), eq_comm]

/-- With public bases the wrapper is looked for in vain, or is not needed, unless `T` is repeated in the
object. -/
theorem C131_redundant (hp : AllPublic H k) (hs : Part H (whole k) s) (ht : Occurs H k t) (h : H.dynCast k s t = none) : ¬ Once H k t := by
  intro ho
  obtain ⟨x, hx, hxt⟩ := ht
  have : H.dynCast k s t = some x := by
    rw [C131_dynamic]
    by_cases hd : ∃ y, Down H k s t y
    · obtain ⟨y, hy⟩ := hd
      rw [ho x y hx hy.1 hxt hy.2.1]
      exact .inl hy
    · exact .inr ⟨hd, pub_of_allPublic hp (.refl _) hs, pub_of_allPublic hp (.refl _) hx, hxt, ho⟩
  rw [h] at this
  cases this

/-- The `T` of the wrapper is what is found, however often the object has a `T`, if it has one
`Wrapper<T,I>` and the handle is on the `I` of that. -/
theorem C131_wrapper (hw : H.Wraps t i w) (ho : ¬ Occurs H i t) {y : Sub} (hy : Part H (whole k) y) (hyw : y.cls = w)
    (honce : Once H k w) : H.extract k (whole i) t w = .to ⟨t, w :: y.via⟩ := by
  have hti : t ≠ i := fun h => ho ⟨whole i, .refl _, h.symm⟩
  have hpub := Wraps.pub hw hyw
  have hx0 : Part H (whole k) ⟨t, w :: y.via⟩ := hy.trans hpub.1.part
  have hs : Part H (whole k) (whole i) := hy.trans hpub.2.part
  refine (C131_extract (s := whole i) hw ho).1.2 ?_
  cases e : H.dynCast k (whole i) t with
  | some x =>
    left
    rcases C131_dynamic.1 e with h | ⟨_, h⟩
    · obtain ⟨z, hz, hzp⟩ := has_iff_inside.1 h.2.2.1.part
      have hzi : z.cls = i := by
        have := inside_cls x z
        rw [← hz] at this
        exact this.symm
      have hzw : z = whole i := by
        unfold Sub.inside at hz
        split at hz
        · rename_i hl
          exfalso
          injection hz with _ hz2
          have h0 : z.via = [] := (List.append_eq_nil_iff.1 hz2.symm).1
          rw [h0, h.2.1] at hl
          simp at hl
          omega
        · exact hz.symm
      subst hzw
      rw [h.2.1] at hzp
      have hin : Part H ⟨t, w :: y.via⟩ (whole i) := by
        refine has_iff_inside.2 ⟨whole i, ?_, hzp⟩
        unfold Sub.inside
        rw [if_neg]
        simp only [whole, List.getLast?_singleton, Option.some.injEq]
        omega
      rw [h.2.2.2 _ hx0 rfl hin]
    · rw [h.2.2.2 x _ h.2.1.part hx0 h.2.2.1 rfl]
  | none =>
    right
    refine ⟨rfl, y, ?_, rfl⟩
    exact C131_dynamic.2 (.inl ⟨hy, hyw, hpub.2, fun z hz hzw _ => honce z y hz hy hzw hyw⟩)

end Helper.Handle.Hierarchy
