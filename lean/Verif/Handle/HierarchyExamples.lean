import Verif.Handle.HierarchyProps
/-!
# C57 and C131: hierarchies for which casts of handles fail, lead elsewhere or do not compile
-/
set_option linter.unusedSectionVars false
namespace Helper.Handle.Hierarchy

/-- The hierarchy with the given lists of bases. -/
def ofList (l : List (List Base)) (h : ∀ k, k < l.length → (∀ b, b ∈ l.getD k [] → b.cls < k) ∧ ((l.getD k []).map Base.cls).Nodup) : Hier where
  bases k := l.getD k []
  lt k b hb := by
    by_cases hk : k < l.length
    · exact (h k hk).1 b hb
    · simp [List.getD, List.getElem?_eq_none (show l.length ≤ k by omega)] at hb
  distinct k := by
    by_cases hk : k < l.length
    · exact (h k hk).2
    · simp [List.getD, List.getElem?_eq_none (show l.length ≤ k by omega)]

/-- A public base that is not virtual. -/
abbrev pub (c : Nat) : Base := ⟨c, false, true⟩
/-- A public virtual base. -/
abbrev vir (c : Nat) : Base := ⟨c, true, true⟩
/-- A private base. -/
abbrev pri (c : Nat) : Base := ⟨c, false, false⟩

/-- `I`=0, `T`=1, `Wrapper<T,I>`=2, `A : T`=3, `B : T`=4, `C : I, A, B`=5, `D : Wrapper<T,I>`=6,
`E : Wrapper<T,I>, A`=7. -/
def repeated : Hier := ofList [[], [], [vir 0, pub 1], [pub 1], [pub 1], [pub 0, pub 3, pub 4], [pub 2], [pub 2, pub 3]] (by decide +kernel)

/-- `I`=0, `A : I`=1, `B : I`=2, `C : A, B`=3, `D : A`=4, `E : D`=5. -/
def diamond : Hier := ofList [[], [pub 0], [pub 0], [pub 1, pub 2], [pub 1], [pub 4]] (by decide +kernel)

/-- `I`=0, `D : virtual I`=1, `C : private D, virtual I`=2, `E : private virtual I`=3, `F : E, virtual I`=4. -/
def hidden : Hier := ofList [[], [vir 0], [pri 1, vir 0], [⟨0, true, false⟩], [pub 3, vir 0]] (by decide +kernel)

/-- `W`=0, `I : W`=1, `T`=2, `Wrapper<W,I>`=3, `Wrapper<T,I>`=4. -/
def writable : Hier := ofList [[], [pub 0], [], [vir 1, pub 0], [vir 1, pub 2]] (by decide +kernel)

theorem part_of {H : Hier} {s x : Sub} (h : x ∈ H.parts false s) : Part H s x := mem_parts_false.1 h

theorem pub_of {H : Hier} {s x : Sub} (h : x ∈ H.parts true s) : Pub H s x := mem_parts_true.1 h

theorem once_of {H : Hier} {k t : Nat} (h : ∀ x ∈ H.parts false (whole k), ∀ y ∈ H.parts false (whole k), x.cls = t → y.cls = t → x = y) : Once H k t :=
  fun x y hx hy => h x (mem_parts_false.2 hx) y (mem_parts_false.2 hy)

theorem not_once_of {H : Hier} {k t : Nat} (x y : Sub) (h : x ∈ H.parts false (whole k) ∧ y ∈ H.parts false (whole k) ∧ x.cls = t ∧ y.cls = t ∧ x ≠ y) : ¬ Once H k t :=
  fun ho => h.2.2.2.2 (ho x y (mem_parts_false.1 h.1) (mem_parts_false.1 h.2.1) h.2.2.1 h.2.2.2.1)

/-- C57 fails if the target is repeated in the object: `C` derives from `T`, but the casts fail, from an
interface that is public and occurs once. -/
theorem C57_refuted : ∃ (H : Hier) (k t w : Nat) (s : Sub), Pub H (whole k) s ∧ Once H k s.cls ∧ H.Wraps t s.cls w ∧ Occurs H k t ∧
    H.castPtr k s t = .null ∧ H.extract k s t w = .null :=
  ⟨repeated, 5, 1, 2, ⟨0, [5]⟩, pub_of (by decide +kernel), once_of (by decide +kernel), rfl,
    ⟨⟨1, [3, 5]⟩, part_of (by decide +kernel), rfl⟩, by decide +kernel, by decide +kernel⟩

/-- The cast to another class and back can lead to another subobject: from the `I` of `A` to `B` and back. -/
theorem C131_back_refuted : ∃ (H : Hier) (k t : Nat) (s x s' : Sub), AllPublic H k ∧ Part H (whole k) s ∧
    H.castPtr k s t = .to x ∧ H.castPtr k x s.cls = .to s' ∧ s' ≠ s := by
  refine ⟨diamond, 3, 2, ⟨0, [1, 3]⟩, ⟨2, [3]⟩, ⟨0, [2, 3]⟩, ?_, part_of (by decide +kernel), by decide +kernel, by decide +kernel, by decide +kernel⟩
  intro y hy b hb
  have h : ∀ y ∈ diamond.parts false (whole 3), ∀ b ∈ diamond.bases y.cls, b.pub = true := by decide +kernel
  exact h y (mem_parts_false.2 hy) b hb

/-- A private base is reached through a public virtual base of it, and there is no way back to the whole
object: `C : private D, virtual I` is cast from `I` to `D`, but not from `D` to `C`'s other public bases. -/
theorem C131_private_refuted : ∃ (H : Hier) (k t : Nat) (s x : Sub), Pub H (whole k) s ∧ Once H k s.cls ∧
    H.castPtr k s t = .to x ∧ ¬ Pub H (whole k) x :=
  ⟨hidden, 2, 1, ⟨0, []⟩, ⟨1, [2]⟩, pub_of (by decide +kernel), once_of (by decide +kernel), by decide +kernel,
    fun h => absurd (mem_parts_true.2 h) (by decide +kernel)⟩

/-- The exception of `C131_back_partial`: to `E : private virtual I` and back. -/
theorem C131_illFormed_refuted : ∃ (H : Hier) (k t : Nat) (s x : Sub), Pub H (whole k) s ∧ Once H k s.cls ∧
    H.castPtr k s t = .to x ∧ H.castPtr k x s.cls = .illFormed :=
  ⟨hidden, 4, 3, ⟨0, []⟩, ⟨3, [4]⟩, pub_of (by decide +kernel), once_of (by decide +kernel), by decide +kernel, by decide +kernel⟩

/-- `dynamic_handle_extract` of a base of the interface does not compile, though every object has it; for
the interface itself there is no class `Wrapper<I,I>`, as a class cannot name a base twice. -/
theorem C131_extract_refuted :
    (∃ (H : Hier) (k t w : Nat) (s : Sub), Pub H (whole k) s ∧ H.Wraps t s.cls w ∧ H.castPtr k s t = .to ⟨t, [s.cls]⟩ ∧ H.extract k s t w = .illFormed) ∧
    ∀ (H : Hier) (i w : Nat), ¬ H.Wraps i i w := by
  refine ⟨⟨writable, 1, 0, 3, whole 1, .refl _, rfl, by decide +kernel, by decide +kernel⟩, ?_⟩
  intro H i w h
  have := H.distinct w
  rw [show H.bases w = _ from h] at this
  simp at this

/-- The wrapper is needed: `E` has two `T`s, and the one of its wrapper is found. -/
theorem C131_needed : ∃ (H : Hier) (k t w : Nat) (s : Sub), AllPublic H k ∧ H.Wraps t s.cls w ∧ H.dynCast k s t = none ∧
    H.extract k s t w = .to ⟨t, [w, k]⟩ := by
  refine ⟨repeated, 7, 1, 2, whole 0, ?_, rfl, by decide +kernel, by decide +kernel⟩
  intro y hy b hb
  have h : ∀ y ∈ repeated.parts false (whole 7), ∀ b ∈ repeated.bases y.cls, b.pub = true := by decide +kernel
  exact h y (mem_parts_false.2 hy) b hb

/-! Examples for the theorems of `HierarchyProps.lean`. -/

example : repeated.parts false (whole 7) = [⟨7, []⟩, ⟨2, [7]⟩, ⟨0, []⟩, ⟨1, [2, 7]⟩, ⟨3, [7]⟩, ⟨1, [3, 7]⟩] := by decide +kernel
example : hidden.parts false (whole 2) = [⟨2, []⟩, ⟨1, [2]⟩, ⟨0, []⟩, ⟨0, []⟩] ∧ hidden.parts true (whole 2) = [⟨2, []⟩, ⟨0, []⟩] := by decide +kernel
/-- `C131_dynamic`, both cases and neither. -/
example : diamond.dynCast 3 ⟨0, [1, 3]⟩ 1 = some ⟨1, [3]⟩ ∧ diamond.dynCast 3 ⟨0, [1, 3]⟩ 2 = some ⟨2, [3]⟩ ∧
    repeated.dynCast 5 ⟨0, [5]⟩ 1 = none := by decide +kernel
/-- `C131_up`: a base, and one that is ambiguous. -/
example : diamond.castPtr 3 ⟨1, [3]⟩ 0 = .to ⟨0, [1, 3]⟩ ∧ diamond.castPtr 3 (whole 3) 0 = .illFormed ∧
    hidden.castPtr 2 (whole 2) 1 = .illFormed := by decide +kernel
/-- `C131_regular_partial` and `C131_classes`. -/
example : AllPublic diamond 5 ∧ (∀ t, Once diamond 5 t) ∧ Part diamond (whole 5) ⟨0, [1, 4, 5]⟩ ∧
    diamond.castPtr 5 ⟨0, [1, 4, 5]⟩ 4 = .to ⟨4, [5]⟩ ∧ diamond.castPtr 5 ⟨0, [1, 4, 5]⟩ 2 = .null := by
  refine ⟨?_, ?_, part_of (by decide +kernel), by decide +kernel, by decide +kernel⟩
  · intro y hy b hb
    have h : ∀ y ∈ diamond.parts false (whole 5), ∀ b ∈ diamond.bases y.cls, b.pub = true := by decide +kernel
    exact h y (mem_parts_false.2 hy) b hb
  · intro t
    apply once_of
    have h : ∀ x ∈ diamond.parts false (whole 5), ∀ y ∈ diamond.parts false (whole 5), x.cls = y.cls → x = y := by decide +kernel
    intro x hx y hy h1 h2
    exact h x hx y hy (h1.trans h2.symm)
/-- `C131_back_partial`. -/
example : Once diamond 5 0 ∧ diamond.castPtr 5 ⟨0, [1, 4, 5]⟩ 4 = .to ⟨4, [5]⟩ ∧ diamond.castPtr 5 ⟨4, [5]⟩ 0 = .to ⟨0, [1, 4, 5]⟩ :=
  ⟨once_of (by decide +kernel), by decide +kernel, by decide +kernel⟩
/-- `C131_compiles`, `C131_extract` and `C131_wrapper`. -/
example : writable.Wraps 2 1 4 ∧ ¬ Occurs writable 1 2 ∧ writable.extract 4 (whole 1) 2 4 = .to ⟨2, [4]⟩ ∧
    writable.extract 1 (whole 1) 2 4 = .null := by
  refine ⟨rfl, fun h => ?_, by decide +kernel, by decide +kernel⟩
  exact absurd (occurs_iff.2 h) (by decide +kernel)
example : Part repeated (whole 7) ⟨2, [7]⟩ ∧ Once repeated 7 2 ∧ ¬ Once repeated 7 1 :=
  ⟨part_of (by decide +kernel), once_of (by decide +kernel), not_once_of ⟨1, [2, 7]⟩ ⟨1, [3, 7]⟩ (by decide +kernel)⟩

end Helper.Handle.Hierarchy
