import Verif.Overload.Model
/-!
# Properties C84 and C85: which constructor runs
-/
namespace Helper.Overload

/-! ## C84 -/

/-- C84: `make_list` of a `std::vector` or a `Set` holds its elements in order. -/
theorem C84_list_partial (t : Ty) (l : List Val) :
    makeList (.vector t l) = some (.list t l) ∧ makeList (.set t l) = some (.list t l) := by
  constructor <;> rfl

/-- C84: `make_array` of a `std::vector` or an `Array` holds its elements in order. -/
theorem C84_array_partial (t : Ty) (l : List Val) :
    makeArray (.vector t l) = some (.array t l) ∧ makeArray (.array t l) = some (.array t l) := by
  constructor <;> rfl

/-- C84 is false: `make_list` of a `List` is a list with one element, that list; `make_list` of a `std::set` likewise; and
`make_list` of an `Array` does not compile. -/
theorem C84_list_refuted (t : Ty) (l : List Val) :
    makeList (.list t l) = some (.list (.list t) [.list t l]) ∧
    makeList (.stdSet t l) = some (.list (.stdSet t) [.stdSet t l]) ∧
    makeList (.array t l) = none := by
  refine ⟨rfl, rfl, rfl⟩

/-- C84 is false: `make_array` of a `List` is an array with one element, that list; the same for sets. -/
theorem C84_array_refuted (t : Ty) (l : List Val) :
    makeArray (.list t l) = some (.array (.list t) [.list t l]) ∧
    makeArray (.set t l) = some (.array (.set t) [.set t l]) ∧
    makeArray (.stdSet t l) = some (.array (.stdSet t) [.stdSet t l]) := by
  refine ⟨?_, ?_, ?_⟩ <;> simp [makeArray, unary, Pat.deduce, resolve, resolveFrom, Cand.better, Val.ty, arrayCtor, convRank, Ty.arith, exact,
    conversion, promotion]

/-- C84: a value that is no container becomes the only element; except that `make_array` of an `unsigned int` does not compile. -/
theorem C84_value (t : Ty) (v : Int) (ht : t.arith = true ∨ ∃ n, t = .cls n) :
    makeList (.prim t v) = some (.list t [.prim t v]) ∧
    makeArray (.prim t v) = if t = .uint then none else some (.array t [.prim t v]) := by
  rcases ht with ht | ⟨n, rfl⟩
  · cases t <;> first | exact ⟨rfl, rfl⟩ | simp [Ty.arith] at ht
  · refine ⟨rfl, ?_⟩
    simp [makeArray, unary, Pat.deduce, resolve, resolveFrom, Cand.better, Val.ty, arrayCtor, convRank, Ty.arith, exact,
      conversion, promotion]

/-! ## C85 -/

/-- C85: the arithmetic types among those of the model. -/
theorem C85_arith (t : Ty) : t.arith = true ↔ t ∈ [.short, .int, .uint, .size, .float, .double] := by
  cases t <;> simp [Ty.arith]

/-- C85: `Array<T>(n,x)`, with a count of an arithmetic type and a value of type `T`, has `n` elements equal to `x`, or does not
compile. -/
theorem C85_array_partial {V : Type} (t a : Ty) (ha : a.arith = true) (n : Nat) (x : V) :
    arrayCountValue t a t n x = if a = t ∧ t ≠ .size then .illFormed else .elements (List.replicate n x) := by
  by_cases h : a = t
  · subst h
    cases a <;> first | rfl | simp [Ty.arith] at ha
  · have h' : ¬ (a = t ∧ t ≠ .size) := fun k => h k.1
    rw [if_neg h']
    have ht : convRank t t = some exact := by simp [convRank]
    obtain ⟨r, hr⟩ : ∃ r, convRank a .size = some r := by
      cases a <;> first | exact ⟨_, rfl⟩ | simp [Ty.arith] at ha
    simp only [arrayCountValue, arrayCtor, hr, ht, if_neg h]
    rfl

/-- C85: `Array<T>(n,x)` with a count and a value of any arithmetic types, for an arithmetic type `T`, compiles unless the count
and the value have the same type, or all three are `size_t`. -/
theorem C85_arrayTypes_partial {V : Type} (t a b : Ty) (ht : t.arith = true) (ha : a.arith = true) (hb : b.arith = true) (n : Nat)
    (x : V) :
    arrayCountValue t a b n x =
      if a = b ∧ ¬ (a = .size ∧ t = .size) then .illFormed else .elements (List.replicate n x) := by
  rw [C85_arith] at ht ha hb
  simp only [List.mem_cons, List.not_mem_nil, or_false] at ht ha hb
  rcases ht with rfl | rfl | rfl | rfl | rfl | rfl <;> rcases ha with rfl | rfl | rfl | rfl | rfl | rfl <;>
    rcases hb with rfl | rfl | rfl | rfl | rfl | rfl <;> rfl

/-- C85 is false: `Array<int>(3,5)` does not compile. -/
theorem C85_array_refuted : arrayCountValue .int .int .int 3 5 = .illFormed := rfl

/-- C85: `List<T>(n)` for every arithmetic type of `n` and every element type: what it means depends on both types. -/
theorem C85_list {V : Type} (t a : Ty) (ha : a.arith = true) (ofNat : Nat → V) (dflt : V) (n : Nat) :
    listCount t a ofNat dflt n =
      if t.arith = false then .elements (List.replicate n dflt)
      else if t = .size then .illFormed
      else if a = .size then .elements (List.replicate n dflt)
      else if a = t ∨ (a = .short ∧ t = .int) ∨ (a = .float ∧ t = .double) then .elements [ofNat n]
      else .illFormed := by
  cases a <;> first | (simp [Ty.arith] at ha; done) | (cases t <;> rfl)

/-- C85 is false: `List<int>(3)` has one element, 3, where `std::vector<int>(3)` has three. -/
theorem C85_list_refuted : listCount .int .int (fun n => (n : Int)) 0 3 = .elements [3] := rfl

/-- C85: with an element type that is not arithmetic, `List<T>(n)` has `n` default elements. -/
theorem C85_list_partial {V : Type} (t a : Ty) (ha : a.arith = true) (ht : t.arith = false) (ofNat : Nat → V) (dflt : V) (n : Nat) :
    listCount t a ofNat dflt n = .elements (List.replicate n dflt) := by
  rw [C85_list t a ha, if_pos ht]

example : arrayCountValue (.cls 0) .int (.cls 0) 2 'x' = .elements ['x', 'x'] := rfl
example : arrayCountValue .double .int .double 2 (5 : Int) = .elements [5, 5] := rfl
example : arrayCountValue .double .int .int 2 (5 : Int) = .illFormed := rfl
example : listCount (.cls 0) .int (fun _ => 'n') 'd' 2 = .elements ['d', 'd'] := rfl
example : listCount .int .size (fun n => (n : Int)) 0 3 = .elements [0, 0, 0] := rfl
example : listCount .double .int (fun n => (n : Int)) 0 3 = .illFormed := rfl
example : makeList (.vector .int [.prim .int 1, .prim .int 2]) = some (.list .int [.prim .int 1, .prim .int 2]) := rfl

/-- The ranks of arithmetic arguments ([over.ics.rank]): the same type is better than any other, and the promoted type better than the remaining ones. -/
theorem C84_ranks {a b : Ty} (ha : a.arith = true) (hb : b.arith = true) (h : a ≠ b) :
    ∃ r r', convRank a a = some r ∧ convRank a b = some r' ∧ r < r' ∧
      ((a, b) ∈ [(Ty.short, Ty.int), (Ty.float, Ty.double)] →
        ∀ c, c.arith = true → c ≠ a → c ≠ b → ∃ r'', convRank a c = some r'' ∧ r' < r'') := by
  cases a <;> cases b <;> simp_all [Ty.arith, convRank, exact, promotion, conversion]
  all_goals (intro c; cases c <;> simp [Ty.arith])

example : convRank .short .int ≠ convRank .short .double ∧ convRank .short .int ≠ convRank .short .short := by decide

end Helper.Overload
