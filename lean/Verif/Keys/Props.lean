import Verif.Keys.Model
import Verif.SetC.Props
import Verif.MapC.Props
import Verif.LRU.Props
import Verif.BinWord.Props
set_option linter.unusedSectionVars false
/-!
# Property C137: words, lists, pairs, sets and maps can be elements of sets, keys of maps and labels of caches
-/
namespace Helper.Keys

universe u v
variable {α : Type u} {β : Type v}

section Lex
variable [Cmp α] [StrictWeak α]

theorem lexLt_irrefl : ∀ l : List α, lexLt l l = false
  | [] => rfl
  | x :: l => by simp [lexLt, lexLt_irrefl l]

theorem lexLt_cons {x y : α} {l m : List α} : lexLt (x :: l) (y :: m) = true ↔ Cmp.lt x y = true ∨ Cmp.equiv x y = true ∧ lexLt l m = true := by
  rw [lexLt, Cmp.equiv_iff]
  cases h1 : Cmp.lt x y
  · cases h2 : Cmp.lt y x <;> simp
  · simp

theorem lexLt_trans : ∀ {l m n : List α}, lexLt l m = true → lexLt m n = true → lexLt l n = true
  | [], [], _, h, _ => by cases h
  | [], _ :: _, [], _, h => by cases h
  | [], _ :: _, _ :: _, _, _ => rfl
  | _ :: _, [], _, h, _ => by cases h
  | _ :: _, _ :: _, [], _, h => by cases h
  | x :: l, y :: m, z :: n, h1, h2 => by
    rw [lexLt_cons] at *
    rcases h1 with h1 | ⟨h1, h1'⟩
    · rcases h2 with h2 | ⟨h2, _⟩
      · exact .inl (StrictWeak.trans h1 h2)
      · exact .inl (by rw [← Cmp.lt_of_equiv_right h2]; exact h1)
    · rcases h2 with h2 | ⟨h2, h2'⟩
      · exact .inl (by rw [Cmp.lt_of_equiv_left h1]; exact h2)
      · exact .inr ⟨Cmp.equiv_trans h1 h2, lexLt_trans h1' h2'⟩

/-- Specification: equally long, with equivalent elements at the same places. -/
def Alike (l m : List α) : Prop := l.length = m.length ∧ ∀ (i : Nat) (h : i < l.length) (h' : i < m.length), Cmp.equiv l[i] m[i] = true

theorem alike_cons {x y : α} {l m : List α} : Alike (x :: l) (y :: m) ↔ Cmp.equiv x y = true ∧ Alike l m := by
  constructor
  · rintro ⟨h1, h2⟩
    refine ⟨h2 0 (by simp) (by simp), by simpa using h1, fun i h h' => ?_⟩
    have := h2 (i + 1) (by simpa using h) (by simpa using h')
    simpa using this
  · rintro ⟨h1, h2, h3⟩
    refine ⟨by simp [h2], fun i h h' => ?_⟩
    cases i with
    | zero => exact h1
    | succ i => simpa using h3 i (by simpa using h) (by simpa using h')

theorem lex_equiv : ∀ {l m : List α}, (lexLt l m = false ∧ lexLt m l = false) ↔ Alike l m
  | [], [] => by simp [lexLt, Alike]
  | [], _ :: _ => by simp [lexLt, Alike]
  | _ :: _, [] => by simp [lexLt, Alike]
  | x :: l, y :: m => by
    rw [alike_cons, ← lex_equiv (l := l) (m := m), lexLt, lexLt, Cmp.equiv_iff]
    cases h1 : Cmp.lt x y <;> cases h2 : Cmp.lt y x <;> simp

theorem alike_trans {l m n : List α} (h1 : Alike l m) (h2 : Alike m n) : Alike l n :=
  ⟨h1.1.trans h2.1, fun i h h' => Cmp.equiv_trans (h1.2 i h (h1.1 ▸ h)) (h2.2 i (h1.1 ▸ h) h')⟩

/-- **C137**: lists of elements that can be ordered can be ordered. -/
instance C137_list_inst : StrictWeak (Seq α) where
  irrefl := lexLt_irrefl
  trans := lexLt_trans
  equivTrans := by
    intro a b c h1 h2
    rw [Cmp.equiv_iff] at *
    exact lex_equiv.2 (alike_trans (lex_equiv.1 h1) (lex_equiv.1 h2))

/-- **C137**: two lists are equivalent as keys if and only if they are equally long and their elements are equivalent one by one. -/
theorem C137_list (l m : Seq α) : Cmp.equiv l m = true ↔ List.length l = List.length m ∧
    ∀ (i : Nat) (h : i < List.length l) (h' : i < List.length m), Cmp.equiv (α := α) (List.get l ⟨i, h⟩) (List.get m ⟨i, h'⟩) = true := by
  rw [Cmp.equiv_iff]
  exact lex_equiv

/-- Specification: `l` and `m` are alike before place `n`, where `l` ends and `m` goes on, or `l` has the lesser element. -/
def LessAt (l m : List α) (n : Nat) : Prop :=
  (∀ i, i < n → ∃ x y, l[i]? = some x ∧ m[i]? = some y ∧ Cmp.equiv x y = true) ∧
  ((l[n]? = none ∧ ∃ y, m[n]? = some y) ∨ ∃ x y, l[n]? = some x ∧ m[n]? = some y ∧ Cmp.lt x y = true)

theorem lessAt_succ {x y : α} {l m : List α} {n : Nat} : LessAt (x :: l) (y :: m) (n + 1) ↔ Cmp.equiv x y = true ∧ LessAt l m n := by
  constructor
  · rintro ⟨h, h'⟩
    obtain ⟨a, b, ha, hb, hab⟩ := h 0 (by omega)
    simp at ha hb
    subst ha hb
    exact ⟨hab, fun i hi => by simpa using h (i + 1) (by omega), by simpa using h'⟩
  · rintro ⟨he, h, h'⟩
    refine ⟨fun i hi => ?_, by simpa using h'⟩
    cases i with
    | zero => exact ⟨x, y, rfl, rfl, he⟩
    | succ i => simpa using h i (by omega)

/-- **C137**: the order of lists is the one of dictionaries. -/
theorem C137_dictionary : ∀ l m : Seq α, Cmp.lt l m = true ↔ ∃ n, LessAt l m n
  | [], [] => ⟨(fun h => by cases h), fun ⟨n, _, h⟩ => by simp at h⟩
  | [], y :: m => ⟨fun _ => ⟨0, by intro i hi; omega, .inl ⟨rfl, y, rfl⟩⟩, fun _ => rfl⟩
  | x :: l, [] => ⟨(fun h => by cases h), fun ⟨n, _, h⟩ => by simp at h⟩
  | x :: l, y :: m => by
    show lexLt (x :: l) (y :: m) = true ↔ _
    have ih := C137_dictionary l m
    change lexLt l m = true ↔ _ at ih
    rw [lexLt_cons, ih]
    constructor
    · rintro (h | ⟨h, n, hn⟩)
      · exact ⟨0, by intro i hi; omega, .inr ⟨x, y, rfl, rfl, h⟩⟩
      · exact ⟨n + 1, lessAt_succ.2 ⟨h, hn⟩⟩
    · rintro ⟨n, hn⟩
      cases n with
      | zero =>
        rcases hn.2 with ⟨h, _⟩ | ⟨a, b, ha, hb, h⟩
        · simp at h
        · simp at ha hb
          subst ha hb
          exact .inl h
      | succ n => exact .inr ⟨(lessAt_succ.1 hn).1, n, (lessAt_succ.1 hn).2⟩

end Lex

theorem alike_eq [Cmp α] [StrictTotal α] {l m : List α} (h : Alike l m) : l = m :=
  List.ext_getElem h.1 fun i h1 h2 => StrictTotal.eq_of_equiv (h.2 i h1 h2)

instance C137_list_total [Cmp α] [StrictTotal α] : StrictTotal (Seq α) where
  eq_of_equiv := by
    intro a b h
    rw [Cmp.equiv_iff] at h
    exact alike_eq (lex_equiv.1 h)

/-! ## Pairs -/

section Pair
variable [Cmp α] [Cmp β]

theorem pair_lt {p q : α × β} : Cmp.lt p q = true ↔ Cmp.lt p.1 q.1 = true ∨ Cmp.lt q.1 p.1 = false ∧ Cmp.lt p.2 q.2 = true := by
  show (Cmp.lt p.1 q.1 || (!Cmp.lt q.1 p.1 && Cmp.lt p.2 q.2)) = true ↔ _
  simp

theorem pair_equiv [StrictWeak α] {p q : α × β} : Cmp.equiv p q = true ↔ Cmp.equiv p.1 q.1 = true ∧ Cmp.equiv p.2 q.2 = true := by
  rw [Cmp.equiv_iff, Cmp.equiv_iff, Cmp.equiv_iff]
  show (Cmp.lt p.1 q.1 || (!Cmp.lt q.1 p.1 && Cmp.lt p.2 q.2)) = false ∧ (Cmp.lt q.1 p.1 || (!Cmp.lt p.1 q.1 && Cmp.lt q.2 p.2)) = false ↔ _
  cases Cmp.lt p.1 q.1 <;> cases Cmp.lt q.1 p.1 <;> simp

variable [StrictWeak α] [StrictWeak β]

instance C137_pair_inst : StrictWeak (α × β) where
  irrefl := fun p => by
    show (Cmp.lt p.1 p.1 || (!Cmp.lt p.1 p.1 && Cmp.lt p.2 p.2)) = false
    simp
  trans := by
    intro a b c h1 h2
    rw [pair_lt] at *
    rcases h1 with h1 | ⟨h1, h1'⟩
    · rcases h2 with h2 | ⟨h2, h2'⟩
      · exact .inl (StrictWeak.trans h1 h2)
      · left
        cases h3 : Cmp.lt b.1 c.1 with
        | true => exact StrictWeak.trans h1 h3
        | false => rw [← Cmp.lt_of_equiv_right (Cmp.equiv_iff.2 ⟨h3, h2⟩)]; exact h1
    · cases h4 : Cmp.lt a.1 b.1 with
      | true =>
        left
        rcases h2 with h2 | ⟨h2, h2'⟩
        · exact StrictWeak.trans h4 h2
        · cases h3 : Cmp.lt b.1 c.1 with
          | true => exact StrictWeak.trans h4 h3
          | false => rw [← Cmp.lt_of_equiv_right (Cmp.equiv_iff.2 ⟨h3, h2⟩)]; exact h4
      | false =>
        have he := Cmp.equiv_iff.2 ⟨h4, h1⟩
        rcases h2 with h2 | ⟨h2, h2'⟩
        · exact .inl (by rw [Cmp.lt_of_equiv_left he]; exact h2)
        · exact .inr ⟨by rw [Cmp.lt_of_equiv_right he]; exact h2, StrictWeak.trans h1' h2'⟩
  equivTrans := by
    intro a b c h1 h2
    rw [pair_equiv] at *
    exact ⟨Cmp.equiv_trans h1.1 h2.1, Cmp.equiv_trans h1.2 h2.2⟩

/-- **C137**: two pairs are equivalent as keys if and only if their parts are. -/
theorem C137_pair (p q : α × β) : Cmp.equiv p q = true ↔ Cmp.equiv p.1 q.1 = true ∧ Cmp.equiv p.2 q.2 = true := pair_equiv

end Pair

instance C137_pair_total [Cmp α] [Cmp β] [StrictTotal α] [StrictTotal β] : StrictTotal (α × β) where
  eq_of_equiv := by
    intro a b h
    rw [pair_equiv] at h
    exact Prod.ext (StrictTotal.eq_of_equiv h.1) (StrictTotal.eq_of_equiv h.2)

/-! ## Words -/

theorem word_lt (w v : WordKey) : BinWord.lt w v = .ok (Cmp.lt w v) := by
  obtain ⟨b, h, _⟩ := BinWord.C08_lexicographic w v
  show _ = Res.ok (match BinWord.lt w v with | .ok b => b | _ => false)
  rw [h]

theorem word_eq {w v : WordKey} (h : Cmp.equiv w v = true) : w = v := by
  rw [Cmp.equiv_iff] at h
  apply Classical.byContradiction
  intro hn
  rcases BinWord.C08_trichotomy (v := w) (w := v) hn with ⟨h1, _⟩ | ⟨_, h1⟩
  · rw [word_lt, h.1] at h1; cases h1
  · rw [word_lt, h.2] at h1; cases h1

instance C137_word_total : StrictTotal WordKey where
  irrefl := fun w => by
    have := BinWord.C08_irrefl w
    rw [word_lt] at this
    exact Res.ok.inj this
  trans := by
    intro a b c h1 h2
    have := BinWord.C08_trans (u := a) (v := b) (w := c) (by rw [word_lt, h1]) (by rw [word_lt, h2])
    rw [word_lt] at this
    exact Res.ok.inj this
  equivTrans := by
    intro a b c h1 h2
    rw [word_eq h1]; exact h2
  eq_of_equiv := word_eq

/-- **C137**: words are compared without undefined behaviour, and are equivalent as keys if and only if they are equal. -/
theorem C137_word (w v : WordKey) : (∃ b, BinWord.lt w v = .ok b ∧ Cmp.lt w v = b) ∧ (Cmp.equiv w v = true ↔ w = v) :=
  ⟨⟨_, word_lt w v, rfl⟩, word_eq, fun h => h ▸ Cmp.equiv_refl w⟩

/-! ## Sets and maps as elements -/

section SetMap
variable [Cmp α] [StrictWeak α]

instance C137_set_inst : StrictWeak (SetKey α) where
  irrefl := fun s => lexLt_irrefl s.1
  trans := fun h1 h2 => lexLt_trans h1 h2
  equivTrans := by
    intro a b c h1 h2
    rw [Cmp.equiv_iff] at *
    exact lex_equiv.2 (alike_trans (lex_equiv.1 h1) (lex_equiv.1 h2))

theorem sorted_alike : ∀ {l m : List α}, OSet.Sorted l → OSet.Sorted m → (∀ t, OSet.Mem t l ↔ OSet.Mem t m) → Alike l m
  | [], [], _, _, _ => ⟨rfl, fun i h => absurd h (by simp)⟩
  | [], y :: m, _, _, h => absurd ((h y).2 ⟨y, by simp, by simp⟩) (by simp [OSet.Mem])
  | x :: l, [], _, _, h => absurd ((h x).1 ⟨x, by simp, by simp⟩) (by simp [OSet.Mem])
  | x :: l, y :: m, hl, hm, h => by
    have hl' := List.pairwise_cons.1 hl
    have hm' := List.pairwise_cons.1 hm
    have hxy : Cmp.equiv x y = true := by
      obtain ⟨z, hz, hzx⟩ := (h x).1 ⟨x, by simp, by simp⟩
      obtain ⟨w, hw, hwy⟩ := (h y).2 ⟨y, by simp, by simp⟩
      rcases List.mem_cons.1 hz with rfl | hz
      · exact Cmp.equiv_symm hzx
      rcases List.mem_cons.1 hw with rfl | hw
      · exact hwy
      exfalso
      have h1 : Cmp.lt y x = true := by rw [← Cmp.lt_of_equiv_right hzx]; exact hm'.1 z hz
      have h2 : Cmp.lt x y = true := by rw [← Cmp.lt_of_equiv_right hwy]; exact hl'.1 w hw
      rw [Cmp.lt_asymm h1] at h2; cases h2
    refine alike_cons.2 ⟨hxy, sorted_alike hl'.2 hm'.2 fun t => ⟨?_, ?_⟩⟩
    · rintro ⟨z, hz, hzt⟩
      obtain ⟨w, hw, hwt⟩ := (h t).1 ⟨z, List.mem_cons_of_mem _ hz, hzt⟩
      rcases List.mem_cons.1 hw with rfl | hw
      · exfalso
        have h1 := hl'.1 z hz
        have h2 : Cmp.equiv x z = true := Cmp.equiv_trans hxy (Cmp.equiv_trans hwt (Cmp.equiv_symm hzt))
        rw [(Cmp.equiv_iff.1 h2).1] at h1; cases h1
      · exact ⟨w, hw, hwt⟩
    · rintro ⟨z, hz, hzt⟩
      obtain ⟨w, hw, hwt⟩ := (h t).2 ⟨z, List.mem_cons_of_mem _ hz, hzt⟩
      rcases List.mem_cons.1 hw with rfl | hw
      · exfalso
        have h1 := hm'.1 z hz
        have h2 : Cmp.equiv y z = true := Cmp.equiv_trans (Cmp.equiv_symm hxy) (Cmp.equiv_trans hwt (Cmp.equiv_symm hzt))
        rw [(Cmp.equiv_iff.1 h2).1] at h1; cases h1
      · exact ⟨w, hw, hwt⟩

theorem alike_mem {l m : List α} (h : Alike l m) (t : α) (ht : OSet.Mem t l) : OSet.Mem t m := by
  obtain ⟨x, hx, hxt⟩ := ht
  obtain ⟨i, hi, rfl⟩ := List.getElem_of_mem hx
  exact ⟨m[i]'(h.1 ▸ hi), List.getElem_mem _, Cmp.equiv_trans (Cmp.equiv_symm (h.2 i hi (h.1 ▸ hi))) hxt⟩

theorem alike_symm {l m : List α} (h : Alike l m) : Alike m l := ⟨h.1.symm, fun i h1 h2 => Cmp.equiv_symm (h.2 i h2 h1)⟩

/-- **C137**: two sets are equivalent as elements of a set if and only if they have the same elements. -/
theorem C137_set (s t : SetKey α) : Cmp.equiv s t = true ↔ ∀ x, SetC.contains s.1 x = SetC.contains t.1 x := by
  rw [Cmp.equiv_iff]
  have hc : (∀ x, SetC.contains s.1 x = SetC.contains t.1 x) ↔ ∀ x, OSet.Mem x s.1 ↔ OSet.Mem x t.1 := by
    have h1 : ∀ (r : List α) x, SetC.contains r x = true ↔ OSet.Mem x r := fun r x => SetC.C35_contains r x
    constructor
    · intro h x; rw [← h1, ← h1, h]
    · intro h x; rw [Bool.eq_iff_iff, h1, h1]; exact h x
  rw [hc]
  constructor
  · intro h x
    have := lex_equiv.1 h
    exact ⟨alike_mem this x, alike_mem (alike_symm this) x⟩
  · intro h
    exact lex_equiv.2 (sorted_alike s.2 t.2 h)

instance C137_map_inst [Cmp β] [StrictWeak β] : StrictWeak (MapKey α β) where
  irrefl := fun s => lexLt_irrefl s.1
  trans := fun h1 h2 => lexLt_trans h1 h2
  equivTrans := by
    intro a b c h1 h2
    rw [Cmp.equiv_iff] at *
    exact lex_equiv.2 (alike_trans (lex_equiv.1 h1) (lex_equiv.1 h2))

/-- **C137**: two maps are equivalent as keys if and only if they bind the same keys to equivalent values. -/
theorem C137_map [Cmp β] [StrictWeak β] (s t : MapKey α β) : Cmp.equiv s t = true ↔
    ∀ k v, (∃ w, MapC.Bound s.1 k w ∧ Cmp.equiv w v = true) ↔ ∃ w, MapC.Bound t.1 k w ∧ Cmp.equiv w v = true := by
  have hb : ∀ (r : List (α × β)) k v, (∃ w, MapC.Bound r k w ∧ Cmp.equiv w v = true) ↔ OSet.Mem (k, v) r := by
    intro r k v
    constructor
    · rintro ⟨w, ⟨k', h, hk⟩, hv⟩
      exact ⟨(k', w), h, pair_equiv.2 ⟨hk, hv⟩⟩
    · rintro ⟨⟨k', w⟩, h, he⟩
      exact ⟨w, ⟨k', h, (pair_equiv.1 he).1⟩, (pair_equiv.1 he).2⟩
  have hs : ∀ r : List (α × β), OMap.Sorted r → OSet.Sorted r := fun r h => List.Pairwise.imp (fun h => pair_lt.2 (.inl h)) h
  simp only [hb]
  rw [Cmp.equiv_iff]
  constructor
  · intro h k v
    have := lex_equiv.1 h
    exact ⟨alike_mem this _, alike_mem (alike_symm this) _⟩
  · intro h
    exact lex_equiv.2 (sorted_alike (hs _ s.2) (hs _ t.2) fun x => h x.1 x.2)

/-- **C137**: what is made of elements that can be ordered can be ordered. -/
theorem C137_orders [Cmp β] [StrictWeak β] : StrictWeak (Seq α) ∧ StrictWeak (α × β) ∧ StrictWeak (SetKey α) ∧ StrictWeak (MapKey α β) ∧
    StrictWeak WordKey :=
  ⟨inferInstance, inferInstance, inferInstance, inferInstance, inferInstance⟩

end SetMap

instance C137_set_total [Cmp α] [StrictTotal α] : StrictTotal (SetKey α) where
  eq_of_equiv := by
    intro a b h
    rw [Cmp.equiv_iff] at h
    exact Subtype.ext (alike_eq (lex_equiv.1 h))

instance C137_map_total [Cmp α] [Cmp β] [StrictTotal α] [StrictTotal β] : StrictTotal (MapKey α β) where
  eq_of_equiv := by
    intro a b h
    rw [Cmp.equiv_iff] at h
    exact Subtype.ext (alike_eq (lex_equiv.1 h))

/-! ## All combinations -/

/-- Specification: types made of integers, words, lists, pairs, sets and maps. -/
inductive Kind where
  | int
  | word
  | list (k : Kind)
  | pair (k l : Kind)
  | set (k : Kind)
  | map (k l : Kind)

/-- A type with an order in which equivalent elements are equal. -/
structure Ordered where
  T : Type
  cmp : Cmp T
  total : StrictTotal T

/-- The C++ type, with its `operator<`. -/
def Kind.ord : Kind → Ordered
  | .int => ⟨Int, inferInstance, inferInstance⟩
  | .word => ⟨WordKey, inferInstance, inferInstance⟩
  | .list k => let o := k.ord; let _ := o.cmp; let _ := o.total; ⟨Seq o.T, inferInstance, inferInstance⟩
  | .pair k l => let o := k.ord; let p := l.ord; let _ := o.cmp; let _ := o.total; let _ := p.cmp; let _ := p.total
      ⟨o.T × p.T, inferInstance, inferInstance⟩
  | .set k => let o := k.ord; let _ := o.cmp; let _ := o.total; ⟨SetKey o.T, inferInstance, inferInstance⟩
  | .map k l => let o := k.ord; let p := l.ord; let _ := o.cmp; let _ := o.total; let _ := p.cmp; let _ := p.total
      ⟨MapKey o.T p.T, inferInstance, inferInstance⟩

/-- The type of the keys. -/
def Kind.Key (k : Kind) : Type := k.ord.T

instance (k : Kind) : Cmp k.Key := k.ord.cmp
instance (k : Kind) : StrictTotal k.Key := k.ord.total

/-- **C137**: all of these types can be ordered, and their equivalent elements are equal. -/
theorem C137_total (k : Kind) : StrictWeak k.Key ∧ ∀ x y : k.Key, Cmp.equiv x y = true ↔ x = y :=
  ⟨inferInstance, fun x _ => ⟨fun h => StrictTotal.eq_of_equiv h, fun h => h ▸ Cmp.equiv_refl x⟩⟩

/-- **C137**: for all of these types, a set of them contains what has been put into it. -/
theorem C137_sets (k : Kind) (l : List k.Key) (x : k.Key) : SetC.contains (SetC.ofList l) x = true ↔ x ∈ l := by
  rw [SetC.C35_contains]
  constructor
  · rintro ⟨y, hy, he⟩
    obtain ⟨a, b, rfl, _⟩ := (SetC.C38_makeSet l).2.2 y |>.1 hy
    rw [← StrictTotal.eq_of_equiv he]
    simp
  · intro h
    obtain ⟨y, hy, he⟩ := ((SetC.C38_makeSet l).2.1 x).2 ⟨x, h, Cmp.equiv_refl x⟩
    exact ⟨y, hy, he⟩

/-- **C137**: a map with such keys returns what has been assigned to the key, and leaves the other keys alone. -/
theorem C137_maps (k : Kind) {V : Type} (dflt : V) (m : MapC.Map k.Key V) (hs : OMap.Sorted m) (x y : k.Key) (v : V) :
    MapC.get (MapC.indexAssign dflt m x v) x = .ok v ∧ (x ≠ y → MapC.get (MapC.indexAssign dflt m x v) y = MapC.get m y) := by
  obtain ⟨h1, h2, _⟩ := MapC.C39_assign dflt hs x v
  refine ⟨((MapC.C39_get h1 x).1 v).2 ((h2 x v).2 (.inl ⟨Cmp.equiv_refl x, rfl⟩)), fun hn => ?_⟩
  have he : Cmp.equiv x y = false := by
    cases h : Cmp.equiv x y with
    | false => rfl
    | true => exact absurd (StrictTotal.eq_of_equiv h) hn
  have hb : ∀ w, MapC.Bound (MapC.indexAssign dflt m x v) y w ↔ MapC.Bound m y w := fun w => by
    rw [h2, he]; simp
  obtain ⟨a1, a2, _⟩ := MapC.C39_get h1 y
  obtain ⟨b1, b2, _⟩ := MapC.C39_get hs y
  by_cases hk : MapC.HasKey m y
  · obtain ⟨w, hw⟩ := hk
    rw [(b1 w).2 hw, (a1 w).2 ((hb w).2 hw)]
  · rw [b2.2 hk, a2.2]
    rintro ⟨w, hw⟩
    exact hk ⟨w, (hb w).1 hw⟩

/-- **C137**: a cache with such labels has a label if and only if it is among the labels stored. -/
theorem C137_cache (k : Kind) {V : Type} (c : LRU.Cache k.Key V) (x : k.Key) : LRU.hasLabel c x = true ↔ ∃ e ∈ c.elements, e.1 = x := by
  unfold LRU.hasLabel
  rw [OMap.find_isSome]
  constructor
  · rintro ⟨e, h, he⟩
    exact ⟨e, h, StrictTotal.eq_of_equiv he⟩
  · rintro ⟨e, h, rfl⟩
    exact ⟨e, h, Cmp.equiv_refl _⟩

/-! ## Numbers that cannot be ordered -/

/-- `double` with its `operator<`: a NaN is not less than anything, and nothing is less than it. (Only some of the numbers.) -/
inductive Num where
  | nan
  | val (i : Int)
deriving DecidableEq, Repr

instance : Cmp Num := ⟨fun a b => match a, b with | .val i, .val j => decide (i < j) | _, _ => false⟩

/-- C137 is false for `double`, and for everything that holds one: the laws of an order are broken, so that the containers are undefined. (In the model,
as in libstdc++, a set finds a NaN that it does not have, and refuses a number that it does not have.) -/
theorem C137_refuted : ¬ StrictWeak Num ∧ ¬ StrictWeak (Seq Num) ∧ SetC.contains [Num.val 1] .nan = true ∧ SetC.ofList [Num.nan, .val 1] = [.nan] := by
  refine ⟨fun h => ?_, fun h => ?_, by decide, by decide⟩
  · have := h.equivTrans (a := .val 1) (b := .nan) (c := .val 2) (by decide) (by decide)
    exact absurd this (by decide)
  · have := h.equivTrans (a := [Num.val 1]) (b := [Num.nan]) (c := [Num.val 2]) (by decide) (by decide)
    exact absurd this (by decide)

example : Cmp.lt (show WordKey from [false, true]) (show WordKey from [true]) = true := by decide
example : Cmp.lt (show Seq Int from [1, 2]) (show Seq Int from [1, 2, 0]) = true := by decide
example : Cmp.lt ((1, 5) : Int × Int) (2, 0) = true ∧ Cmp.lt ((1, 5) : Int × Int) (1, 5) = false := by decide
example : Cmp.equiv (show Seq Tens from [⟨31⟩, ⟨4⟩]) (show Seq Tens from [⟨38⟩, ⟨0⟩]) = true := by decide
example : SetC.contains (SetC.ofList [show WordKey from [true], [false]]) (show WordKey from [true]) = true := by decide
example : (SetC.ofList [show WordKey from [true], [false], [true]]).length = 2 := by decide
example : (Kind.list (.set .word)).Key = Seq (SetKey WordKey) := rfl

end Helper.Keys
