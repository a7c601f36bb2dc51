import Verif.Arith.Model
set_option linter.unusedSectionVars false
namespace Helper.Arith
variable {P : Platform}

theorem pow_le {m n : Nat} : (2 : Int) ^ m ≤ 2 ^ n ↔ m ≤ n := by
  have : ((2 ^ m : Nat) : Int) ≤ ((2 ^ n : Nat) : Int) ↔ m ≤ n := by
    rw [Int.ofNat_le]; exact Nat.pow_le_pow_iff_right (by decide)
  simpa using this

theorem pow_pos (n : Nat) : (0 : Int) < 2 ^ n := Int.pow_pos (by decide)

theorem width_pos (i : ITy) : 1 ≤ P.width i := by
  have h1 := P.char_le; have h2 := P.short_le; have h3 := P.short_int; have h4 := P.long_le; have h5 := P.llong_le
  have h6 := P.w16_pos; have h7 := P.w32_pos; have h8 := P.wWchar_pos
  cases i <;> simp only [Platform.width] <;> omega

/-- `fits` in terms of widths. -/
theorem fits_iff (a b : ITy) : P.fits a b = true ↔
    (P.signed a = P.signed b ∧ P.width a ≤ P.width b) ∨ (P.signed a = false ∧ P.signed b = true ∧ P.width a < P.width b) := by
  have ha := width_pos (P := P) a
  have hb := width_pos (P := P) b
  have p1 := pow_pos (P.width a - 1); have p2 := pow_pos (P.width a); have p3 := pow_pos (P.width b - 1); have p4 := pow_pos (P.width b)
  have q1 := pow_le (m := P.width a - 1) (n := P.width b - 1)
  have q2 := pow_le (m := P.width a) (n := P.width b)
  have q3 := pow_le (m := P.width a) (n := P.width b - 1)
  unfold Platform.fits Platform.lo Platform.hi
  cases P.signed a <;> cases P.signed b <;> simp <;> omega

theorem fits_refl (a : ITy) : P.fits a a = true := (fits_iff a a).2 (.inl ⟨rfl, Nat.le_refl _⟩)

theorem fits_trans {a b c : ITy} (h1 : P.fits a b = true) (h2 : P.fits b c = true) : P.fits a c = true := by
  simp only [Platform.fits, Bool.and_eq_true, decide_eq_true_eq] at *
  omega

/-- The promoted types. -/
def Promoted (i : ITy) : Prop := i = .int ∨ i = .uint ∨ i = .long ∨ i = .ulong ∨ i = .llong ∨ i = .ullong

theorem promote_promoted (i : ITy) : Promoted (P.promote i) := by
  unfold Promoted
  cases i <;> simp only [Platform.promote, Platform.promote.first] <;> (repeat' split) <;> simp

theorem promote_id {i : ITy} (h : Promoted i) : P.promote i = i := by
  rcases h with h | h | h | h | h | h <;> subst h <;> rfl

theorem fits_promote (i : ITy) : P.fits i (P.promote i) = true := by
  have h1 := P.char_le; have h2 := P.short_le; have h3 := P.short_int; have h4 := P.long_le; have h5 := P.llong_le
  have h6 := P.w16_le; have h7 := P.w32_le; have h8 := P.wWchar_le; have h9 := P.char_short; have h10 := P.int_long; have h11 := P.long_llong
  have first : ∀ j, P.width j ≤ P.wLLong → P.fits j (Platform.promote.first P j) = true := by
    intro j hj
    unfold Platform.promote.first
    repeat' split
    · assumption
    · assumption
    · assumption
    · assumption
    · assumption
    · rename_i hn
      rw [fits_iff] at hn ⊢
      cases hs : P.signed j with
      | true => exact absurd (.inl ⟨by rw [hs]; rfl, hj⟩) hn
      | false => exact .inl ⟨rfl, hj⟩
  cases i <;> simp only [Platform.promote]
  case bool => rw [fits_iff]; exact .inr ⟨rfl, rfl, by simp only [Platform.width]; omega⟩
  case char8 => exact first _ (by simp only [Platform.width]; omega)
  case char16 => exact first _ (by simp only [Platform.width]; omega)
  case char32 => exact first _ (by simp only [Platform.width]; omega)
  case wchar => exact first _ (by simp only [Platform.width]; omega)
  case char =>
    split
    · assumption
    · rename_i hn
      rw [fits_iff] at hn ⊢
      cases hs : P.signed .char with
      | true => exact absurd (.inl ⟨by rw [hs]; rfl, by simp only [Platform.width]; omega⟩) hn
      | false => exact .inl ⟨rfl, by simp only [Platform.width]; omega⟩
  case schar =>
    split
    · assumption
    · rename_i hn
      rw [fits_iff] at hn
      exact absurd (.inl ⟨rfl, by simp only [Platform.width]; omega⟩) hn
  case uchar =>
    split
    · assumption
    · rw [fits_iff]; exact .inl ⟨rfl, by simp only [Platform.width]; omega⟩
  case short =>
    split
    · assumption
    · rename_i hn
      rw [fits_iff] at hn
      exact absurd (.inl ⟨rfl, by simp only [Platform.width]; omega⟩) hn
  case ushort =>
    split
    · assumption
    · rw [fits_iff]; exact .inl ⟨rfl, by simp only [Platform.width]; omega⟩
  all_goals exact fits_refl _

/-! ## The common type -/

/-- The common type of promoted types, given whether `long` is wider than `int`, `long long` than `int`, and `long long` than `long`. -/
def commonB (x y z : Bool) (a b : ITy) : ITy :=
  if a = b then a
  else match a, b with
    | .int, b => b
    | a, .int => a
    | .uint, .long | .long, .uint => if x then .long else .ulong
    | .uint, .llong | .llong, .uint => if y then .llong else .ullong
    | .ulong, .llong | .llong, .ulong => if z then .llong else .ullong
    | .uint, b => b
    | a, .uint => a
    | .long, b => b
    | a, .long => a
    | .ulong, b => b
    | a, .ulong => a
    | _, _ => .ullong

def promotedTypes : List ITy := [.int, .uint, .long, .ulong, .llong, .ullong]

theorem promoted_mem {i : ITy} : Promoted i ↔ i ∈ promotedTypes := by simp [Promoted, promotedTypes]

theorem common_eq {a b : ITy} (ha : Promoted a) (hb : Promoted b) :
    P.common a b = commonB (decide (P.wInt < P.wLong)) (decide (P.wInt < P.wLLong)) (decide (P.wLong < P.wLLong)) a b := by
  have f1 : P.fits .uint .long = decide (P.wInt < P.wLong) := by
    rw [Bool.eq_iff_iff, fits_iff]; simp [Platform.signed, Platform.width]
  have f2 : P.fits .uint .llong = decide (P.wInt < P.wLLong) := by
    rw [Bool.eq_iff_iff, fits_iff]; simp [Platform.signed, Platform.width]
  have f3 : P.fits .ulong .llong = decide (P.wLong < P.wLLong) := by
    rw [Bool.eq_iff_iff, fits_iff]; simp [Platform.signed, Platform.width]
  rcases ha with h | h | h | h | h | h <;> subst h <;> rcases hb with h | h | h | h | h | h <;> subst h <;>
    simp [Platform.common, commonB, Platform.signed, rank, unsignedOf, f1, f2, f3]

theorem flags : decide (P.wInt < P.wLLong) = (decide (P.wInt < P.wLong) || decide (P.wLong < P.wLLong)) := by
  have h1 := P.int_long; have h2 := P.long_llong
  rw [Bool.eq_iff_iff]
  simp
  omega

theorem commonB_promoted : ∀ x z : Bool, ∀ a ∈ promotedTypes, ∀ b ∈ promotedTypes, commonB x (x || z) z a b ∈ promotedTypes := by decide
theorem commonB_comm : ∀ x z : Bool, ∀ a ∈ promotedTypes, ∀ b ∈ promotedTypes, commonB x (x || z) z a b = commonB x (x || z) z b a := by decide
theorem commonB_assoc : ∀ x z : Bool, ∀ a ∈ promotedTypes, ∀ b ∈ promotedTypes, ∀ c ∈ promotedTypes,
    commonB x (x || z) z (commonB x (x || z) z a b) c = commonB x (x || z) z a (commonB x (x || z) z b c) := by decide

theorem common_promoted {a b : ITy} (ha : Promoted a) (hb : Promoted b) : Promoted (P.common a b) := by
  rw [common_eq ha hb, flags]; exact promoted_mem.2 (commonB_promoted _ _ _ (promoted_mem.1 ha) _ (promoted_mem.1 hb))

theorem common_comm {a b : ITy} (ha : Promoted a) (hb : Promoted b) : P.common a b = P.common b a := by
  rw [common_eq ha hb, common_eq hb ha, flags]; exact commonB_comm _ _ _ (promoted_mem.1 ha) _ (promoted_mem.1 hb)

theorem common_assoc {a b c : ITy} (ha : Promoted a) (hb : Promoted b) (hc : Promoted c) :
    P.common (P.common a b) c = P.common a (P.common b c) := by
  rw [common_eq (common_promoted ha hb) hc, common_eq ha hb, common_eq ha (common_promoted hb hc), common_eq hb hc, flags]
  exact commonB_assoc _ _ _ (promoted_mem.1 ha) _ (promoted_mem.1 hb) _ (promoted_mem.1 hc)

theorem common_self (a : ITy) : P.common a a = a := by simp [Platform.common]

/-- The common type is at least as wide, and wider if it is signed and the first type is not. -/
theorem width_common {a b : ITy} (ha : Promoted a) (hb : Promoted b) :
    P.width a ≤ P.width (P.common a b) ∧ (P.signed a = false → P.signed (P.common a b) = true → P.width a < P.width (P.common a b)) := by
  have h1 := P.int_long; have h2 := P.long_llong
  rw [common_eq ha hb]
  have key : ∀ x y z : Bool, (x = true ↔ P.wInt < P.wLong) → (y = true ↔ P.wInt < P.wLLong) → (z = true ↔ P.wLong < P.wLLong) →
      P.width a ≤ P.width (commonB x y z a b) ∧ (P.signed a = false → P.signed (commonB x y z a b) = true →
        P.width a < P.width (commonB x y z a b)) := by
    intro x y z hx hy hz
    rcases ha with e | e | e | e | e | e <;> subst e <;> rcases hb with e | e | e | e | e | e <;> subst e <;>
      cases x <;> cases y <;> cases z <;> simp [commonB, Platform.signed, Platform.width] <;> simp at hx hy hz <;> omega
  exact key _ _ _ decide_eq_true_iff decide_eq_true_iff decide_eq_true_iff

theorem hi_common {a b : ITy} (ha : Promoted a) (hb : Promoted b) : P.hi a ≤ P.hi (P.common a b) := by
  obtain ⟨h1, h2⟩ := width_common (P := P) ha hb
  have q1 := pow_le (m := P.width a - 1) (n := P.width (P.common a b) - 1)
  have q2 := pow_le (m := P.width a) (n := P.width (P.common a b))
  have q3 := pow_le (m := P.width a) (n := P.width (P.common a b) - 1)
  have q4 := pow_le (m := P.width a - 1) (n := P.width (P.common a b))
  unfold Platform.hi
  cases hs : P.signed a <;> cases ht : P.signed (P.common a b) <;> simp [hs, ht] at h2 ⊢ <;> omega

theorem lo_common {a b : ITy} (ha : Promoted a) (hb : Promoted b) (h : P.signed a = true → P.signed (P.common a b) = true) :
    P.lo (P.common a b) ≤ P.lo a := by
  obtain ⟨h1, -⟩ := width_common (P := P) ha hb
  have q1 := pow_le (m := P.width a - 1) (n := P.width (P.common a b) - 1)
  have q2 := pow_pos (P.width (P.common a b) - 1)
  unfold Platform.lo
  cases hs : P.signed a <;> cases ht : P.signed (P.common a b) <;> simp [hs, ht] at h ⊢ <;> omega

theorem signed_promote {a : ITy} (h : P.signed a = true) : P.signed (P.promote a) = true := by
  have := fits_promote (P := P) a
  rw [fits_iff, h] at this
  rcases this with ⟨e, _⟩ | ⟨e, _⟩
  · exact e.symm
  · cases e

end Helper.Arith
