import Verif.Arith.Lemmas
set_option linter.unusedSectionVars false
namespace Helper.Arith
variable (P : Platform)

/-! ## Types -/

theorem usual_comm (a b : Ty) : P.usual a b = P.usual b a := by
  cases a <;> cases b <;> simp only [Platform.usual]
  · rw [common_comm (promote_promoted _) (promote_promoted _)]
  · rename_i f g; cases f <;> cases g <;> rfl

theorem usual_assoc (a b c : Ty) : (P.usual a b).bind (P.usual · c) = (P.usual b c).bind (P.usual a ·) := by
  cases a <;> cases b <;> cases c <;> simp only [Platform.usual, Option.bind_some, Option.bind_none]
  · rw [promote_id (common_promoted (promote_promoted _) (promote_promoted _)),
      promote_id (common_promoted (promote_promoted _) (promote_promoted _)),
      common_assoc (promote_promoted _) (promote_promoted _) (promote_promoted _)]
  · rename_i f g h; cases f <;> cases g <;> cases h <;> rfl

/-- C105: `SumType` and `ProductType` do not depend on the order of the types, nor (like `QuotientType`) on how three of them are grouped; pointers included. -/
theorem C105_comm (a b : Ty) : P.sumType a b = P.sumType b a ∧ P.productType a b = P.productType b a ∧ P.quotientType a b = P.quotientType b a ∧
    P.arithmeticType a b = P.arithmeticType b a := by
  refine ⟨?_, usual_comm P a b, usual_comm P a b, ?_⟩
  · have h := usual_comm P a b
    cases a <;> cases b <;> first | exact h | rfl
  · unfold Platform.arithmeticType Platform.productType; rw [usual_comm]

theorem C105_assoc (a b c : Ty) :
    (P.sumType a b).bind (P.sumType · c) = (P.sumType b c).bind (P.sumType a ·) ∧
    (P.productType a b).bind (P.productType · c) = (P.productType b c).bind (P.productType a ·) := by
  refine ⟨?_, usual_assoc P a b c⟩
  have h := usual_assoc P a b c
  cases a <;> cases b <;> cases c <;>
    first | exact h | simp [Platform.sumType, Platform.usual]

/-- C105: `ArithmeticType<X1,X2>` is the type of sums and products; it is closed under all operators, and mixing it with `X1` or `X2` changes nothing. -/
theorem C105_closed (a b t : Ty) (h : P.arithmeticType a b = some t) :
    P.productType a b = some t ∧ P.sumType a b = some t ∧ P.differenceType a b = some t ∧ P.quotientType a b = some t ∧
    P.arithmeticType t t = some t ∧ P.sumType t t = some t ∧ P.productType t t = some t ∧ P.differenceType t t = some t ∧
    P.quotientType t t = some t ∧ P.negationType t = some t ∧ P.sumType a t = some t ∧ P.sumType t b = some t ∧ builtinArithmetic t = true := by
  have self : ∀ i j, P.common (P.promote (P.common (P.promote i) (P.promote j))) (P.promote (P.common (P.promote i) (P.promote j))) =
      P.common (P.promote i) (P.promote j) := by
    intro i j
    rw [common_self, promote_id (common_promoted (promote_promoted _) (promote_promoted _))]
  have left : ∀ i j, P.common (P.promote i) (P.promote (P.common (P.promote i) (P.promote j))) = P.common (P.promote i) (P.promote j) := by
    intro i j
    rw [promote_id (common_promoted (promote_promoted _) (promote_promoted _)),
      ← common_assoc (promote_promoted _) (promote_promoted _) (promote_promoted _), common_self]
  have right : ∀ i j, P.common (P.promote (P.common (P.promote i) (P.promote j))) (P.promote j) = P.common (P.promote i) (P.promote j) := by
    intro i j
    rw [promote_id (common_promoted (promote_promoted _) (promote_promoted _)),
      common_assoc (promote_promoted _) (promote_promoted _) (promote_promoted _), common_self]
  have fself : ∀ f : FTy, fcommon f f = f := by intro f; cases f <;> rfl
  have fleft : ∀ f g : FTy, fcommon f (fcommon f g) = fcommon f g := by intro f g; cases f <;> cases g <;> rfl
  have fright : ∀ f g : FTy, fcommon (fcommon f g) g = fcommon f g := by intro f g; cases f <;> cases g <;> rfl
  have pid : ∀ i j, P.promote (P.common (P.promote i) (P.promote j)) = P.common (P.promote i) (P.promote j) := fun i j =>
    promote_id (common_promoted (promote_promoted _) (promote_promoted _))
  cases a with
  | int i =>
    cases b with
    | int j =>
      simp only [Platform.arithmeticType, Platform.productType, Platform.usual, Option.bind_some, Platform.sumType, self] at h
      cases h
      simp [Platform.arithmeticType, Platform.productType, Platform.usual, Platform.sumType, Platform.differenceType, Platform.quotientType,
        Platform.negationType, builtinArithmetic, self, left, right]
      exact pid i j
    | flt g => cases h; simp [Platform.arithmeticType, Platform.productType, Platform.usual, Platform.sumType, Platform.differenceType,
        Platform.quotientType, Platform.negationType, builtinArithmetic, fself]
    | ptr o => cases h
  | flt f =>
    cases b with
    | int j => cases h; simp [Platform.arithmeticType, Platform.productType, Platform.usual, Platform.sumType, Platform.differenceType,
        Platform.quotientType, Platform.negationType, builtinArithmetic, fself]
    | flt g =>
      simp only [Platform.arithmeticType, Platform.productType, Platform.usual, Option.bind_some, Platform.sumType, fself] at h
      cases h
      simp [Platform.arithmeticType, Platform.productType, Platform.usual, Platform.sumType, Platform.differenceType,
        Platform.quotientType, Platform.negationType, builtinArithmetic, fself, fleft, fright]
    | ptr o => cases h
  | ptr o => cases b <;> cases h

/-- C105: which of the types exist. -/
theorem C105_exists (a b : Ty) :
    (P.canMultiply a b = (builtinArithmetic a && builtinArithmetic b)) ∧
    ((P.arithmeticType a b).isSome = (builtinArithmetic a && builtinArithmetic b)) ∧
    (P.canAdd a b = true ↔ (builtinArithmetic a = true ∧ builtinArithmetic b = true) ∨
      (∃ o i, (a = .ptr o ∧ b = .int i) ∨ (a = .int i ∧ b = .ptr o))) ∧
    (P.canSubtract a b = true ↔ (builtinArithmetic a = true ∧ builtinArithmetic b = true) ∨
      (∃ o i, a = .ptr o ∧ b = .int i) ∨ (∃ o, a = .ptr o ∧ b = .ptr o)) := by
  refine ⟨?_, ?_, ?_, ?_⟩
  · cases a <;> cases b <;> rfl
  · cases a <;> cases b <;> rfl
  · cases a <;> cases b <;> simp [Platform.canAdd, Platform.sumType, Platform.usual, builtinArithmetic]
  · cases a <;> cases b <;> simp [Platform.canSubtract, Platform.differenceType, Platform.usual, builtinArithmetic]
    rename_i o o'
    by_cases e : o = o' <;> simp [e, eq_comm]

/-- C105: the in-place types are the type of the left operand; they exist, for an operand that is not `const`, where a result of the operator
can be converted to it. -/
theorem C105_inplace (a b : Ty) :
    (∀ t, inplaceSumType false a b = some t → t = a) ∧ (∀ t, inplaceProductType false a b = some t → t = a) ∧
    inplaceSumType true a b = none ∧ inplaceProductType true a b = none ∧
    (inplaceProductType false a b).isSome = P.canMultiply a b ∧
    ((inplaceSumType false a b).isSome = true ↔ P.canAdd a b = true ∧ (P.sumType a b = some a ∨ builtinArithmetic b = true ∧ builtinArithmetic a = true)) := by
  refine ⟨?_, ?_, rfl, rfl, ?_, ?_⟩
  · cases a <;> cases b <;> intro t h <;> cases h <;> rfl
  · cases a <;> cases b <;> intro t h <;> cases h <;> rfl
  · cases a <;> cases b <;> rfl
  · cases a <;> cases b <;> simp [inplaceSumType, Platform.canAdd, Platform.sumType, Platform.usual, builtinArithmetic]

/-! ## Values -/

theorem has_int {i : ITy} {n : Int} : P.Has (.int i) n ↔ P.lo i ≤ n ∧ n ≤ P.hi i :=
  ⟨fun ⟨m, e, h⟩ => by rw [Rat.intCast_inj.1 e]; exact h, fun h => ⟨n, rfl, h⟩⟩

theorem lo_le_hi (i : ITy) : P.lo i ≤ 0 ∧ 0 ≤ P.hi i ∧ P.hi i + 1 - P.lo i = 2 ^ P.width i := by
  have h := width_pos (P := P) i
  have p1 := pow_pos (P.width i - 1)
  have p2 := pow_pos (P.width i)
  unfold Platform.lo Platform.hi
  have e : (2 : Int) ^ P.width i = 2 * 2 ^ (P.width i - 1) := by
    obtain ⟨w, hw⟩ : ∃ w, P.width i = w + 1 := ⟨P.width i - 1, by omega⟩
    rw [hw, Nat.add_sub_cancel, Int.pow_succ, Int.mul_comm]
  split <;> omega

/-- C105: the conversion of an operand keeps every value that the common type has, and gives a value of this type. -/
theorem C105_conv (t : Ty) (v : Rat) (h : P.Has t v) : P.conv t v = v := by
  cases t with
  | int i =>
    obtain ⟨n, rfl, h1, h2⟩ := h
    have := lo_le_hi P i
    simp only [Platform.conv, Rat.floor_intCast, Platform.wrap]
    rw [Int.emod_eq_of_lt (by omega) (by omega)]
    congr 1
    omega
  | flt f => exact Double.C102_exact (P.digits_pos f) h
  | ptr o => cases h

/-- C105, for integer types: the common type has all values of an operand if it is signed or the operand is not; otherwise it has not. -/
theorem C105_values_partial (a b c : ITy) (h : P.sumType (.int a) (.int b) = some (.int c)) :
    (∀ v, P.Has (.int a) v → P.Has (.int c) v) ↔ (P.signed a = true → P.signed c = true) := by
  have hc : P.common (P.promote a) (P.promote b) = c := by
    simp only [Platform.sumType, Platform.usual, Option.some.injEq, Ty.int.injEq] at h; exact h
  constructor
  · intro hv hs
    have h1 := lo_le_hi P a
    have hlo : P.lo a < 0 := by
      unfold Platform.lo
      rw [if_pos hs]
      have := pow_pos (P.width a - 1)
      omega
    have := (has_int P).1 (hv (P.lo a) ((has_int P).2 ⟨by omega, by omega⟩))
    cases hc : P.signed c with
    | true => rfl
    | false =>
      have : P.lo c = 0 := by unfold Platform.lo; rw [hc]; rfl
      omega
  · intro hs v hv
    obtain ⟨n, rfl, h1, h2⟩ := hv
    rw [has_int]
    have f := fits_promote (P := P) a
    simp only [Platform.fits, Bool.and_eq_true, decide_eq_true_eq] at f
    have h3 := hi_common (P := P) (promote_promoted (P := P) a) (promote_promoted (P := P) b)
    rw [hc] at h3
    refine ⟨?_, by omega⟩
    cases hcs : P.signed c with
    | true =>
      have h4 := lo_common (P := P) (promote_promoted (P := P) a) (promote_promoted (P := P) b) fun _ => by rw [hc]; exact hcs
      rw [hc] at h4
      omega
    | false =>
      have ha : P.signed a = false := by
        cases ha : P.signed a with
        | false => rfl
        | true => rw [hs ha] at hcs; cases hcs
      have e1 : P.lo c = 0 := by unfold Platform.lo; rw [hcs]; rfl
      have e2 : P.lo a = 0 := by unfold Platform.lo; rw [ha]; rfl
      omega

/-- The number of bits of an integer type that give its value, the sign not counted. -/
def Platform.bits (i : ITy) : Nat := if P.signed i then P.width i - 1 else P.width i

theorem bits_bound {i : ITy} {n : Int} (h : P.lo i ≤ n ∧ n ≤ P.hi i) : -2 ^ P.bits i ≤ n ∧ n ≤ 2 ^ P.bits i := by
  have p1 := pow_pos (P.width i - 1); have p2 := pow_pos (P.width i)
  unfold Platform.lo Platform.hi at h
  unfold Platform.bits
  cases hs : P.signed i <;> simp [hs] at h ⊢ <;> omega

theorem hi_bits (i : ITy) : P.hi i = 2 ^ P.bits i - 1 := by
  unfold Platform.hi Platform.bits
  split <;> rfl

/-- `2^p+1` needs more than `p` digits. -/
theorem not_float {p : Nat} (hp : 0 < p) : ¬ Double.Float p ((2 ^ p + 1 : Int) : Rat) := by
  rintro ⟨k, j, h1, h2, e⟩
  have hp2 := pow_pos p
  by_cases hj : 0 < j
  · obtain ⟨m, rfl⟩ : ∃ m : Nat, j = (m + 1 : Nat) := ⟨(j - 1).toNat, by omega⟩
    rw [Double.two_nat, show (((2 ^ (m + 1) : Nat) : Rat)) = ((2 ^ (m + 1) : Int) : Rat) by simp, ← Rat.intCast_mul, Rat.intCast_inj] at e
    obtain ⟨q, rfl⟩ : ∃ q, p = q + 1 := ⟨p - 1, by omega⟩
    rw [Int.pow_succ, Int.pow_succ, ← Int.mul_assoc] at e
    omega
  · obtain ⟨m, rfl⟩ : ∃ m : Nat, j = -(m : Int) := ⟨(-j).toNat, by omega⟩
    have e' : ((2 ^ p + 1 : Int) : Rat) * 2 ^ (m : Int) = (k : Rat) := by
      rw [e, Rat.mul_assoc, ← Double.two_add, Int.add_left_neg]
      simp
    rw [Double.two_nat, show (((2 ^ m : Nat) : Rat)) = ((2 ^ m : Int) : Rat) by simp, ← Rat.intCast_mul, Rat.intCast_inj] at e'
    have hm := pow_pos m
    have : (2 ^ p + 1) * 1 ≤ (2 ^ p + 1 : Int) * 2 ^ m := Int.mul_le_mul_of_nonneg_left (by omega) (by omega)
    omega

/-- C105, for an integer and a floating point type: all values of the integer type are kept if and only if it has no more bits than the other has digits. -/
theorem C105_float_partial (a : ITy) (f : FTy) : (∀ v, P.Has (.int a) v → P.Has (.flt f) v) ↔ P.bits a ≤ P.digits f := by
  have hp := P.digits_pos f
  constructor
  · intro h
    apply Classical.byContradiction
    intro hn
    have q := (pow_le (m := P.digits f + 1) (n := P.bits a)).2 (by omega)
    rw [Int.pow_succ] at q
    have q1 := (pow_le (m := 1) (n := P.digits f)).2 hp
    have := lo_le_hi P a
    have := hi_bits P a
    exact not_float hp (h _ ((has_int P).2 ⟨by omega, by omega⟩))
  · rintro h v ⟨n, rfl, hn⟩
    have hb := bits_bound P hn
    have := (pow_le (m := P.bits a) (n := P.digits f)).2 h
    exact Double.float_int hp (by omega) (by omega)

theorem float_le {p q : Nat} (h : p ≤ q) {v : Rat} (hv : Double.Float p v) : Double.Float q v := by
  obtain ⟨k, j, h1, h2, e⟩ := hv
  have := (pow_le (m := p) (n := q)).2 h
  exact ⟨k, j, by omega, by omega, e⟩

/-- C105, for two floating point types: all values are kept. -/
theorem C105_double (f g : FTy) (v : Rat) (h : P.Has (.flt f) v) : P.Has (.flt (fcommon f g)) v := by
  refine float_le ?_ h
  have h1 := P.digits_le; have h2 := P.digits_le'
  cases f <;> cases g <;> simp only [fcommon] <;> omega

/-- C105: comparisons are those of the numbers if the common type has them. -/
theorem C105_less_partial (a b t : Ty) (h : P.usual a b = some t) (x y : Rat) (hx : P.Has t x) (hy : P.Has t y) :
    P.less a b x y = some (decide (x < y)) := by
  simp [Platform.less, h, C105_conv P t x hx, C105_conv P t y hy]

theorem promote_int {a : ITy} (h : P.bits a + 1 < P.wInt) : P.promote a = .int := by
  have h1 := P.char_le; have h2 := P.short_le; have h3 := P.short_int; have h4 := P.long_le; have h5 := P.llong_le
  have h9 := P.char_short; have h10 := P.int_long; have h11 := P.long_llong
  have hf : P.fits a .int = true := by
    rw [fits_iff]
    unfold Platform.bits at h
    cases hs : P.signed a with
    | true => rw [hs, if_pos rfl] at h; exact .inl ⟨rfl, by simp only [Platform.width] at *; omega⟩
    | false => rw [hs, if_neg (by decide)] at h; exact .inr ⟨rfl, rfl, by simp only [Platform.width] at *; omega⟩
  cases a
  case bool => rfl
  all_goals first
    | (simp [Platform.bits, Platform.signed, Platform.width] at h; omega)
    | (simp only [Platform.promote, Platform.promote.first]; rw [if_pos hf])

theorem int_bounds : P.lo .int = -2 ^ (P.wInt - 1) ∧ P.hi .int = 2 ^ (P.wInt - 1) - 1 := ⟨rfl, rfl⟩

/-- An operation of two small types is carried out in `int`. -/
theorem op_small {a b : ITy} (ha : P.bits a + 1 < P.wInt) (hb : P.bits b + 1 < P.wInt) {x y : Int}
    (hx : P.Has (.int a) x) (hy : P.Has (.int b) y) (g : Rat → Rat → Rat) (z : Int) (hg : g x y = z) (hz : P.lo .int ≤ z ∧ z ≤ P.hi .int) :
    (P.usual (.int a) (.int b)).bind (Platform.add.op P fun t => g (P.conv t x) (P.conv t y)) = some (z : Rat) := by
  have hu : P.usual (.int a) (.int b) = some (.int .int) := by
    simp only [Platform.usual, promote_int P ha, promote_int P hb, common_self]
  have small : ∀ c v, P.bits c + 1 < P.wInt → P.Has (.int c) v → P.conv (.int .int) v = v := by
    intro c v hc hv
    apply C105_conv
    have hs : P.usual (.int c) (.int c) = some (.int .int) := by simp only [Platform.usual, promote_int P hc, common_self]
    exact (C105_values_partial P c c .int hs).2 (fun _ => rfl) v hv
  rw [hu, Option.bind_some]
  simp only [Platform.add.op, small a _ ha hx, small b _ hb hy, hg, Rat.floor_intCast]
  rw [if_pos (show P.signed .int = true from rfl)]
  simp [hz]

/-- C105, for integer types with at least two bits less than `int`: the sum has the type `int` and is right. -/
theorem C105_sum_partial (a b : ITy) (ha : P.bits a + 1 < P.wInt) (hb : P.bits b + 1 < P.wInt) (x y : Int)
    (hx : P.Has (.int a) x) (hy : P.Has (.int b) y) :
    P.sumType (.int a) (.int b) = some (.int .int) ∧ P.add (.int a) (.int b) x y = some ((x + y : Int) : Rat) := by
  refine ⟨?_, op_small P ha hb hx hy (· + ·) (x + y) (by simp) ?_⟩
  · simp only [Platform.sumType, Platform.usual, promote_int P ha, promote_int P hb, common_self]
  rw [has_int] at hx hy
  have bx := bits_bound P hx
  have bY := bits_bound P hy
  have px := (pow_le (m := P.bits a) (n := P.wInt - 2)).2 (by omega)
  have py := (pow_le (m := P.bits b) (n := P.wInt - 2)).2 (by omega)
  have e : (2 : Int) ^ (P.wInt - 1) = 2 * 2 ^ (P.wInt - 2) := by
    rw [show P.wInt - 1 = (P.wInt - 2) + 1 by omega, Int.pow_succ, Int.mul_comm]
  have hax := hi_bits P a
  have hby := hi_bits P b
  have := int_bounds P
  omega

/-- C105, for two integer types that together have at least two bits less than `int`: the product has the type `int` and is right. -/
theorem C105_product_partial (a b : ITy) (h : P.bits a + P.bits b + 1 < P.wInt) (x y : Int) (hx : P.Has (.int a) x) (hy : P.Has (.int b) y) :
    P.productType (.int a) (.int b) = some (.int .int) ∧ P.mul (.int a) (.int b) x y = some ((x * y : Int) : Rat) := by
  have ha : P.bits a + 1 < P.wInt := by omega
  have hb : P.bits b + 1 < P.wInt := by omega
  refine ⟨?_, op_small P ha hb hx hy (· * ·) (x * y) (by simp) ?_⟩
  · simp only [Platform.productType, Platform.usual, promote_int P ha, promote_int P hb, common_self]
  rw [has_int] at hx hy
  have bx := bits_bound P hx
  have bY := bits_bound P hy
  have e : (2 : Int) ^ (P.wInt - 1) = 2 * 2 ^ (P.wInt - 2) := by
    rw [show P.wInt - 1 = (P.wInt - 2) + 1 by omega, Int.pow_succ, Int.mul_comm]
  have := int_bounds P
  have p := (pow_le (m := P.bits a + P.bits b) (n := P.wInt - 2)).2 (by omega)
  rw [Int.pow_add] at p
  have pp := pow_pos (P.wInt - 2)
  have key : ∀ A B u v : Int, -A ≤ u → u ≤ A → -B ≤ v → v ≤ B → -(A * B) ≤ u * v ∧ u * v ≤ A * B := by
    intro A B u v h1 h2 h3 h4
    have hn : (u * v).natAbs ≤ A.natAbs * B.natAbs := by
      rw [Int.natAbs_mul]
      exact Nat.mul_le_mul (by omega) (by omega)
    have hab : ((A.natAbs * B.natAbs : Nat) : Int) = A * B := by
      rw [Int.natCast_mul, Int.natAbs_of_nonneg (by omega), Int.natAbs_of_nonneg (by omega)]
    omega
  have := key _ _ _ _ bx.1 bx.2 bY.1 bY.2
  omega

/-- C105 is false on Linux: the common type of `int` and `unsigned` has not the value -1, so that `-1 < 0u` does not hold; that of `int` and `float` has
not the value 2^24+1, which is then not greater than 2^24; the product of two values of `unsigned short` is undefined; `short += short` has not the type
of the sum. -/
theorem C105_refuted :
    (lp64.sumType (.int .int) (.int .uint) = some (.int .uint) ∧ lp64.Has (.int .int) (-1) ∧ ¬ lp64.Has (.int .uint) (-1) ∧
      lp64.less (.int .int) (.int .uint) (-1) 0 = some false) ∧
    (lp64.sumType (.int .int) (.flt .float) = some (.flt .float) ∧ lp64.Has (.int .int) 16777217 ∧ ¬ lp64.Has (.flt .float) 16777217 ∧
      lp64.less (.flt .float) (.int .int) 16777216 16777217 = some false) ∧
    (lp64.productType (.int .ushort) (.int .ushort) = some (.int .int) ∧ lp64.Has (.int .ushort) 65535 ∧
      lp64.mul (.int .ushort) (.int .ushort) 65535 65535 = none) ∧
    (lp64.sumType (.int .short) (.int .short) = some (.int .int) ∧ inplaceSumType false (.int .short) (.int .short) = some (.int .short)) := by
  refine ⟨⟨by decide, ⟨-1, by decide, by decide +kernel⟩, ?_, by decide +kernel⟩,
    ⟨by decide, ⟨16777217, by decide, by decide +kernel⟩, ?_, by decide +kernel⟩,
    ⟨by decide, ⟨65535, by decide, by decide +kernel⟩, by decide +kernel⟩, by decide, rfl⟩
  · rintro ⟨n, e, h1, h2⟩
    have : (n : Int) = -1 := by
      have : ((n : Int) : Rat) = ((-1 : Int) : Rat) := e.symm
      exact Rat.intCast_inj.1 this
    rw [this] at h1
    revert h1
    decide
  · exact not_float (p := 24) (by decide)

/-- Types on Linux, and on a platform whose `long` has 32 bits. -/
example : lp64.sumType (.int .char) (.int .char) = some (.int .int) ∧ lp64.sumType (.int .uint) (.int .long) = some (.int .long) ∧
    lp64.sumType (.int .ulong) (.int .llong) = some (.int .ullong) ∧ lp64.sumType (.int .bool) (.flt .double) = some (.flt .double) ∧
    lp64.arithmeticType (.int .short) (.int .uint) = some (.int .uint) ∧ lp64.differenceType (.ptr 3) (.ptr 3) = some (.int .long) ∧
    lp64.sumType (.ptr 3) (.ptr 3) = none ∧ lp64.negationType (.int .char32) = some (.int .uint) ∧
    lp64.negationType (.int .wchar) = some (.int .int) := by decide +kernel

example : lp64.bits .uchar = 8 ∧ lp64.bits .short = 15 ∧ lp64.add (.int .uchar) (.int .short) 200 (-300) = some (-100) ∧
    lp64.mul (.int .uchar) (.int .short) 200 (-300) = some (-60000) := by decide +kernel

/-- The types of sums of two objects of the same small type: `int`, or `unsigned int` for the unsigned ones that are as wide. -/
theorem C105_small :
    P.sumType (.int .bool) (.int .bool) = some (.int .int) ∧
    P.sumType (.int .schar) (.int .schar) = some (.int .int) ∧
    P.sumType (.int .short) (.int .short) = some (.int .int) ∧
    P.sumType (.int .uchar) (.int .uchar) = some (.int (if P.wChar < P.wInt then .int else .uint)) ∧
    P.sumType (.int .ushort) (.int .ushort) = some (.int (if P.wShort < P.wInt then .int else .uint)) ∧
    P.sumType (.int .char) (.int .char) = some (.int (if P.charSigned = true ∨ P.wChar < P.wInt then .int else .uint)) := by
  have h1 := P.char_short; have h2 := P.short_int
  simp only [Platform.sumType, Platform.usual, common_self, Platform.promote, Option.some.injEq, Ty.int.injEq, fits_iff,
    Platform.signed, Platform.width, true_and]
  refine ⟨?_, ?_, ?_, ?_, ?_⟩
  · rw [if_pos (.inl (by omega))]
  · rw [if_pos (.inl (by omega))]
  · simp
  · simp
  · cases P.charSigned <;> simp; omega

/-- Such platforms exist: all types as wide as `long long`, `char` unsigned. -/
example : ∃ P : Platform, P.sumType (.int .char) (.int .char) = some (.int .uint) := by
  let P : Platform := { lp64 with
    charSigned := false
    wChar := 64
    wShort := 64
    wInt := 64
    char_le := by decide
    short_le := by decide
    char_short := by decide
    short_int := by decide
    int_long := by decide }
  refine ⟨P, ?_⟩
  decide +kernel

end Helper.Arith
