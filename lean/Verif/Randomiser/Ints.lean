import Verif.Randomiser.Props
set_option linter.unusedSectionVars false
/-!
# Property C147: integer randomisers (randomiser.hpp:71, 79-82)

`C67_int` assumes that `std::uniform_int_distribution` gives values between its bounds. Here the distribution is the one of libstdc++, for the engine
`std::mt19937` (randomiser.hpp:56), whose words have 32 bits, and computed with unsigned numbers of 64 bits (`uint_fast32_t` has 64 bits on the usual 64-bit
platforms). Words that would make some values more frequent are rejected and the next one is tried, so a call may need any number of words: it is modelled
for a list of the words to come, and has no result if they are all used up.
-/
namespace Helper.Randomiser.Ints

/-- The number of words. -/
def W : Nat := 2 ^ 32

/-- The numbers of the unsigned type of the computation. -/
def M : Nat := 2 ^ 64

/-- How the interval is reached from a word: by a product (newer versions of the library) or by a division (older ones). -/
inductive Alg where
  | product
  | division
  deriving DecidableEq

/-- Whether a word is accepted for `r` values, `0 < r < 2^32`. For the product `-r % r` is computed in 32 bits, and only if the low half is below `r`. -/
def accept : Alg → Nat → Nat → Bool
  | .product, r, g => !(decide (g * r % W < r)) || !(decide (g * r % W < (W - r) % r))
  | .division, r, g => decide (g < r * ((W - 1) / r))

/-- The value of a word that is accepted. -/
def result : Alg → Nat → Nat → Nat
  | .product, r, g => g * r / W
  | .division, r, g => g / ((W - 1) / r)

/-- The loop that looks for a word. -/
def firstWord (acc : Nat → Bool) : List Nat → Option (Nat × List Nat)
  | [] => none
  | g :: gs => if acc g then some (g, gs) else firstWord acc gs

/-- A number from 0 to `u`, `u < 2^32`. -/
def small (alg : Alg) (u : Nat) (ws : List Nat) : Option (Nat × List Nat) :=
  if u < W - 1 then (firstWord (accept alg (u + 1)) ws).map fun (g, gs) => (result alg (u + 1) g, gs)
  else match ws with
    | [] => none
    | g :: gs => some (g, gs)

/-- A number from 0 to `u`, `2^32 ≤ u < 2^64`: the high half is drawn first, then a word is added. The first argument bounds the number of rounds. -/
def large (alg : Alg) (u : Nat) : Nat → List Nat → Option (Nat × List Nat)
  | 0, _ => none
  | n + 1, ws =>
    match small alg (u / W) ws with
    | none => none
    | some (_, []) => none
    | some (h, l :: ws') =>
      let tmp := W * h % M
      let ret := (tmp + l) % M
      if u < ret ∨ ret < tmp then large alg u n ws' else some (ret, ws')

/-- A number from 0 to `u`; no more rounds are possible than there are words. -/
def offset (alg : Alg) (u : Nat) (ws : List Nat) : Option (Nat × List Nat) :=
  if u ≤ W - 1 then small alg u ws else large alg u ws.length ws

/-- Conversion to the unsigned type of the computation. -/
def toU (x : Int) : Int := x % (M : Nat)

/-- Conversion to the type of the values, of `w` bits. -/
def conv (signed : Bool) (w : Nat) (x : Int) : Int :=
  let y := x % (2 ^ w : Nat)
  if signed = true ∧ ((2 ^ (w - 1) : Nat) : Int) ≤ y then y - (2 ^ w : Nat) else y

/-- `get()` (line 71) of a randomiser with bounds `a` and `b`. -/
def getInt (signed : Bool) (w : Nat) (alg : Alg) (a b : Int) (ws : List Nat) : Option (Int × List Nat) :=
  let u := ((toU b - toU a) % (M : Nat)).toNat
  (offset alg u ws).map fun (r, ws') => (conv signed w ((r + toU a) % (M : Nat)), ws')

/-! ## Specification -/

/-- The values of the type. -/
def InType (signed : Bool) (w : Nat) (x : Int) : Prop :=
  if signed then -((2 ^ (w - 1) : Nat) : Int) ≤ x ∧ x < ((2 ^ (w - 1) : Nat) : Int) else 0 ≤ x ∧ x < ((2 ^ w : Nat) : Int)

instance (signed : Bool) (w : Nat) (x : Int) : Decidable (InType signed w x) := by unfold InType; infer_instance

/-- How many words give each value. -/
def share : Alg → Nat → Nat
  | .product, r => W / r
  | .division, r => (W - 1) / r

/-! ## Lemmas -/

theorem W_eq : W = 4294967296 := rfl
theorem M_eq : M = 18446744073709551616 := rfl

theorem neg_mod {r : Nat} (h : r ≤ W) : (W - r) % r = W % r := by
  conv => rhs; rw [show W = (W - r) + r by omega, Nat.add_mod_right]

theorem accept_product {r g : Nat} (h0 : 0 < r) (h : r ≤ W) : accept .product r g = true ↔ W % r ≤ g * r % W := by
  have hm := Nat.mod_lt W h0
  simp only [accept, neg_mod h, Bool.or_eq_true, Bool.not_eq_true', decide_eq_false_iff_not]
  omega

/-- Multiples of `r` in an interval of `r * q` numbers. -/
theorem multiples {r x q : Nat} (h0 : 0 < r) (g : Nat) :
    (x ≤ g * r ∧ g * r < x + r * q) ↔ ((x + r - 1) / r ≤ g ∧ g < (x + r - 1) / r + q) := by
  have key : ∀ y k : Nat, (y + r - 1) / r ≤ k ↔ y ≤ k * r := by
    intro y k
    rw [Nat.div_le_iff_le_mul_add_pred h0, Nat.mul_comm]
    omega
  have e : (x + r * q + r - 1) / r = (x + r - 1) / r + q := by
    rw [show x + r * q + r - 1 = x + r - 1 + r * q by omega, Nat.add_mul_div_left _ _ h0]
  have h1 := key x g
  have h2 := key (x + r * q) g
  rw [e] at h2
  omega

theorem product_iff {r v g : Nat} (h0 : 0 < r) (h : r ≤ W) :
    (accept .product r g = true ∧ result .product r g = v) ↔ (W * v + W % r ≤ g * r ∧ g * r < W * v + W % r + r * (W / r)) := by
  rw [accept_product h0 h]
  simp only [result]
  have hd := Nat.div_add_mod (g * r) W
  have hm := Nat.mod_lt (g * r) (show 0 < W by decide)
  have hr := Nat.div_add_mod W r
  generalize g * r / W = z at *
  generalize g * r % W = y at *
  generalize r * (W / r) = Q at *
  generalize W % r = t at *
  rw [W_eq] at *
  constructor
  · rintro ⟨h1, rfl⟩; omega
  · rintro ⟨h1, h2⟩; omega

/-! ## C147 -/

/-- C147: each of `r` values is given by equally many words, which follow one another, and by at least one. -/
theorem C147_uniform (alg : Alg) {r v : Nat} (h0 : 0 < r) (h : r < W) (hv : v < r) :
    0 < share alg r ∧ ∃ g0, g0 + share alg r ≤ W ∧
      ∀ g, (accept alg r g = true ∧ result alg r g = v) ↔ g0 ≤ g ∧ g < g0 + share alg r := by
  cases alg
  · refine ⟨Nat.div_pos (by omega) h0, (W * v + W % r + r - 1) / r, ?_, fun g => ?_⟩
    · have hq : 0 < W / r := Nat.div_pos (by omega) h0
      have := (multiples (x := W * v + W % r) (q := W / r) h0 ((W * v + W % r + r - 1) / r + W / r - 1)).2
        ⟨by generalize (W * v + W % r + r - 1) / r = c; generalize W / r = q at *; omega,
         by generalize (W * v + W % r + r - 1) / r = c; generalize W / r = q at *; omega⟩
      have h2 : W * v + W % r + r * (W / r) ≤ W * r := by
        have := Nat.div_add_mod W r
        have := Nat.mul_le_mul_left W (show v + 1 ≤ r from hv)
        rw [Nat.mul_add] at this
        omega
      have h3 : ((W * v + W % r + r - 1) / r + W / r - 1) * r < W * r := by omega
      have := Nat.lt_of_mul_lt_mul_right h3
      simp only [share]
      generalize (W * v + W % r + r - 1) / r = c at *
      generalize W / r = q at *
      omega
    · rw [product_iff h0 (Nat.le_of_lt h)]
      exact multiples h0 g
  · have hs : 0 < (W - 1) / r := Nat.div_pos (by omega) h0
    refine ⟨hs, (W - 1) / r * v, ?_, fun g => ?_⟩
    · have h1 : (W - 1) / r * v + (W - 1) / r ≤ (W - 1) / r * r := by
        rw [← Nat.mul_succ]; exact Nat.mul_le_mul_left _ hv
      have h2 := Nat.div_mul_le_self (W - 1) r
      simp only [share]
      omega
    · simp only [accept, result, share, decide_eq_true_eq]
      generalize (W - 1) / r = s at *
      have h1 : s * v + s ≤ r * s := by
        rw [← Nat.mul_succ, Nat.mul_comm]; exact Nat.mul_le_mul_right _ hv
      constructor
      · rintro ⟨_, rfl⟩
        have := Nat.div_add_mod g s
        have := Nat.mod_lt g hs
        omega
      · rintro ⟨h2, h3⟩
        refine ⟨by omega, ?_⟩
        rw [Nat.div_eq_iff hs]
        rw [Nat.mul_comm] at h2 h3
        omega

/-- C147: the value of a word that is accepted is one of the `r` values. -/
theorem C147_below (alg : Alg) {r g : Nat} (h0 : 0 < r) (hg : g < W) (ha : accept alg r g = true) : result alg r g < r := by
  cases alg
  · simp only [result]
    rw [Nat.div_lt_iff_lt_mul (by decide), Nat.mul_comm]
    exact Nat.mul_lt_mul_of_pos_left hg h0
  · simp only [accept, decide_eq_true_eq] at ha
    simp only [result]
    have hs : 0 < (W - 1) / r := by
      rcases Nat.eq_zero_or_pos ((W - 1) / r) with h | h
      · rw [h] at ha; omega
      · exact h
    rw [Nat.div_lt_iff_lt_mul hs]
    exact ha

/-- C147: at least half of the words are accepted. -/
theorem C147_half (alg : Alg) {r : Nat} (h0 : 0 < r) (h : r < W) : W ≤ 2 * (r * share alg r) := by
  have key : ∀ N, r ≤ N → N < 2 * (r * (N / r)) := by
    intro N hN
    have h1 := Nat.div_add_mod N r
    have h2 := Nat.mod_lt N h0
    have h3 : r * 1 ≤ r * (N / r) := Nat.mul_le_mul_left r (Nat.div_pos hN h0)
    omega
  cases alg
  · have := key W (by omega); simp only [share]; omega
  · have := key (W - 1) (by omega); simp only [share]; omega

theorem firstWord_spec (acc : Nat → Bool) (ws : List Nat) :
    (∀ g gs, firstWord acc ws = some (g, gs) ↔ ∃ pre, ws = pre ++ g :: gs ∧ acc g = true ∧ ∀ x ∈ pre, acc x = false) ∧
    (firstWord acc ws = none ↔ ∀ x ∈ ws, acc x = false) := by
  induction ws with
  | nil => simp [firstWord]
  | cons w ws ih =>
    by_cases hw : acc w = true
    · simp only [firstWord, if_pos hw]
      refine ⟨fun g gs => ⟨fun h => ?_, ?_⟩, by simp [hw]⟩
      · obtain ⟨rfl, rfl⟩ := Prod.mk.inj (Option.some.inj h)
        exact ⟨[], rfl, hw, by simp⟩
      · rintro ⟨pre, h1, h2, h3⟩
        cases pre with
        | nil => simp only [List.nil_append, List.cons.injEq] at h1; rw [h1.1, h1.2]
        | cons x pre =>
          simp only [List.cons_append, List.cons.injEq] at h1
          have := h3 x (by simp)
          rw [← h1.1, hw] at this
          cases this
    · have hw' : acc w = false := by simpa using hw
      simp only [firstWord, if_neg hw]
      refine ⟨fun g gs => ?_, by simp [ih.2, hw']⟩
      rw [ih.1]
      constructor
      · rintro ⟨pre, rfl, h2, h3⟩
        exact ⟨w :: pre, rfl, h2, by simpa [hw'] using h3⟩
      · rintro ⟨pre, h1, h2, h3⟩
        cases pre with
        | nil =>
          simp only [List.nil_append, List.cons.injEq] at h1
          rw [← h1.1] at h2
          exact absurd h2 hw
        | cons x pre =>
          simp only [List.cons_append, List.cons.injEq] at h1
          exact ⟨pre, h1.2, h2, fun y hy => h3 y (List.mem_cons_of_mem _ hy)⟩

theorem firstWord_mem {acc : Nat → Bool} {ws gs : List Nat} {g : Nat} (h : firstWord acc ws = some (g, gs)) :
    g ∈ ws ∧ acc g = true ∧ ∃ pre, ws = pre ++ g :: gs := by
  obtain ⟨pre, h1, h2, _⟩ := ((firstWord_spec acc ws).1 g gs).1 h
  exact ⟨by rw [h1]; simp, h2, pre, h1⟩

theorem small_spec (alg : Alg) {u : Nat} (hu : u < W) {ws ws' : List Nat} {v : Nat} (hw : ∀ g ∈ ws, g < W) (h : small alg u ws = some (v, ws')) :
    v ≤ u ∧ ∃ pre, ws = pre ++ ws' ∧ pre ≠ [] := by
  unfold small at h
  split at h
  · obtain ⟨⟨g, gs⟩, h1, h2⟩ := Option.map_eq_some_iff.1 h
    obtain ⟨rfl, rfl⟩ := Prod.mk.inj h2
    obtain ⟨m1, m2, pre, m3⟩ := firstWord_mem h1
    have := C147_below alg (show 0 < u + 1 by omega) (hw g m1) m2
    exact ⟨by omega, pre ++ [g], by simp [m3], by simp⟩
  · cases ws with
    | nil => cases h
    | cons g gs =>
      obtain ⟨rfl, rfl⟩ := Prod.mk.inj (Option.some.inj h)
      have := hw g (by simp)
      exact ⟨by omega, [g], rfl, by simp⟩

/-- A round of the loop for large intervals: the numbers of 64 bits do not wrap around. -/
theorem large_succ (alg : Alg) {u : Nat} (hu : u < M) (n : Nat) {ws : List Nat} (hw : ∀ g ∈ ws, g < W) :
    large alg u (n + 1) ws = match small alg (u / W) ws with
      | none => none
      | some (_, []) => none
      | some (h, l :: ws') => if u < W * h + l then large alg u n ws' else some (W * h + l, ws') := by
  rw [large]
  have huW : u / W < W := by rw [Nat.div_lt_iff_lt_mul (by decide)]; exact hu
  cases e : small alg (u / W) ws with
  | none => rfl
  | some x =>
    obtain ⟨h, ws1⟩ := x
    cases ws1 with
    | nil => rfl
    | cons l ws' =>
      obtain ⟨h1, pre, h2, _⟩ := small_spec alg huW hw e
      have hl : l < W := hw l (by rw [h2]; simp)
      have hWh : W * h + l < M := by
        have := Nat.mul_le_mul_left W (show h + 1 ≤ W by omega)
        rw [Nat.mul_add] at this
        have e : W * W = M := by decide
        omega
      simp only [Nat.mod_eq_of_lt (show W * h < M by omega), Nat.mod_eq_of_lt hWh]
      have : (u < W * h + l ∨ W * h + l < W * h) ↔ u < W * h + l := by omega
      simp only [this]

theorem large_le (alg : Alg) {u : Nat} (hu : u < M) : ∀ (n : Nat) {ws ws' : List Nat} {v : Nat}, (∀ g ∈ ws, g < W) →
    large alg u n ws = some (v, ws') → v ≤ u ∧ ∃ pre, ws = pre ++ ws' ∧ pre ≠ [] := by
  have huW : u / W < W := by rw [Nat.div_lt_iff_lt_mul (by decide)]; exact hu
  intro n
  induction n with
  | zero => intro ws ws' v _ h; cases h
  | succ n ih =>
    intro ws ws' v hw h
    rw [large_succ alg hu n hw] at h
    cases e : small alg (u / W) ws with
    | none => rw [e] at h; cases h
    | some x =>
      obtain ⟨hh, ws1⟩ := x
      rw [e] at h
      obtain ⟨_, pre, h2, _⟩ := small_spec alg huW hw e
      cases ws1 with
      | nil => cases h
      | cons l ws2 =>
        simp only at h
        split at h
        · obtain ⟨i1, pre', i2, _⟩ := ih (fun g hg => hw g (by rw [h2]; simp [hg])) h
          exact ⟨i1, pre ++ l :: pre', by rw [h2, i2]; simp, by simp⟩
        · obtain ⟨rfl, rfl⟩ := Prod.mk.inj (Option.some.inj h)
          exact ⟨by omega, pre ++ [l], by rw [h2]; simp, by simp⟩

/-- The bound on the number of rounds has no effect. -/
theorem C147_rounds (alg : Alg) {u : Nat} (hu : u < M) : ∀ (n m : Nat) (ws : List Nat), (∀ g ∈ ws, g < W) → ws.length ≤ n → ws.length ≤ m →
    large alg u n ws = large alg u m ws := by
  have huW : u / W < W := by rw [Nat.div_lt_iff_lt_mul (by decide)]; exact hu
  have nil : ∀ n, large alg u n [] = none := by
    intro n
    cases n with
    | zero => rfl
    | succ n =>
      rw [large_succ alg hu n (by simp)]
      have : small alg (u / W) [] = none := by unfold small; split <;> rfl
      rw [this]
  intro n
  induction n with
  | zero =>
    intro m ws _ h _
    have : ws = [] := List.length_eq_zero_iff.1 (by omega)
    rw [this, nil, nil]
  | succ n ih =>
    intro m ws hw hn hm
    cases m with
    | zero =>
      have : ws = [] := List.length_eq_zero_iff.1 (by omega)
      rw [this, nil, nil]
    | succ m =>
      rw [large_succ alg hu n hw, large_succ alg hu m hw]
      cases e : small alg (u / W) ws with
      | none => rfl
      | some x =>
        obtain ⟨hh, ws1⟩ := x
        obtain ⟨_, pre, h2, h3⟩ := small_spec alg huW hw e
        cases ws1 with
        | nil => rfl
        | cons l ws2 =>
          have hlen : ws.length = pre.length + (ws2.length + 1) := by rw [h2]; simp
          have hpre : 0 < pre.length := List.length_pos_iff.2 h3
          simp only
          rw [ih m ws2 (fun g hg => hw g (by rw [h2]; simp [hg])) (by omega) (by omega)]

theorem offset_le (alg : Alg) {u : Nat} (hu : u < M) {ws ws' : List Nat} {v : Nat} (hw : ∀ g ∈ ws, g < W) (h : offset alg u ws = some (v, ws')) :
    v ≤ u ∧ ∃ pre, ws = pre ++ ws' ∧ pre ≠ [] := by
  unfold offset at h
  split at h
  · exact small_spec alg (by have := W_eq; omega) hw h
  · exact large_le alg hu _ hw h

theorem conv_toU {signed : Bool} {w : Nat} (hw : 0 < w) (h64 : w ≤ 64) {x : Int} (hx : InType signed w x) : conv signed w (x % (M : Nat)) = x := by
  have hd : ((2 ^ w : Nat) : Int) ∣ ((M : Nat) : Int) := by
    have : (2 ^ w : Nat) ∣ M := Nat.pow_dvd_pow 2 h64
    exact Int.natCast_dvd_natCast.2 this
  have e2 : 2 ^ w = 2 * 2 ^ (w - 1) := by
    rw [show w = (w - 1) + 1 by omega, Nat.pow_succ]; simp; omega
  simp only [conv, Int.emod_emod_of_dvd x hd]
  have hp : 0 < 2 ^ (w - 1) := Nat.two_pow_pos _
  rw [e2]
  unfold InType at hx
  rw [e2] at hx
  generalize 2 ^ (w - 1) = K at *
  cases signed
  · simp only [Bool.false_eq_true, if_false, false_and] at hx ⊢
    exact Int.emod_eq_of_lt hx.1 hx.2
  · simp only [if_true, true_and] at hx ⊢
    rcases Int.lt_or_le x 0 with h | h
    · have e : x % ((2 * K : Nat) : Int) = x + (2 * K : Nat) := by
        rw [← Int.add_emod_right, Int.emod_eq_of_lt (by omega) (by omega)]
      rw [e, if_pos (by omega)]
      omega
    · have e : x % ((2 * K : Nat) : Int) = x := Int.emod_eq_of_lt h (by omega)
      rw [e, if_neg (by omega)]

/-- C147: for bounds of the type, `get()` adds a number from 0 to `b - a` to `a`, without errors of signs or widths. -/
theorem C147_get {signed : Bool} {w : Nat} (h0 : 0 < w) (h64 : w ≤ 64) (alg : Alg) {a b : Int} (ha : InType signed w a) (hb : InType signed w b)
    (hab : a ≤ b) {ws : List Nat} (hw : ∀ g ∈ ws, g < W) :
    getInt signed w alg a b ws = (offset alg (b - a).toNat ws).map fun (r, ws') => (a + (r : Int), ws') := by
  have hM : b - a < (M : Nat) := by
    have hK : 2 ^ w ≤ M := Nat.pow_le_pow_right (by decide) h64
    have e2 : 2 ^ w = 2 * 2 ^ (w - 1) := by
      rw [show w = (w - 1) + 1 by omega, Nat.pow_succ]; simp; omega
    unfold InType at ha hb
    cases signed
    · simp only [Bool.false_eq_true, if_false] at ha hb; omega
    · simp only [if_true] at ha hb; omega
  have hu : ((toU b - toU a) % ((M : Nat) : Int)).toNat = (b - a).toNat := by
    unfold toU
    rw [← Int.sub_emod, Int.emod_eq_of_lt (by omega) hM]
  unfold getInt
  simp only [hu]
  cases e : offset alg (b - a).toNat ws with
  | none => rfl
  | some x =>
    obtain ⟨r, ws'⟩ := x
    have hr := (offset_le alg (by omega) hw e).1
    simp only [Option.map_some]
    have e1 : ((r : Int) + toU a) % ((M : Nat) : Int) = (a + r) % ((M : Nat) : Int) := by
      unfold toU
      rw [Int.add_emod_emod, Int.add_comm]
    have hin : InType signed w (a + r) := by
      unfold InType at ha hb ⊢
      cases signed
      · simp only [Bool.false_eq_true, if_false] at ha hb ⊢; omega
      · simp only [if_true] at ha hb ⊢; omega
    rw [e1, conv_toU h0 h64 hin]

/-- C147: every value is between the bounds. -/
theorem C147_between {signed : Bool} {w : Nat} (h0 : 0 < w) (h64 : w ≤ 64) (alg : Alg) {a b : Int} (ha : InType signed w a) (hb : InType signed w b)
    (hab : a ≤ b) {ws : List Nat} (hw : ∀ g ∈ ws, g < W) {v : Int} {ws' : List Nat} (h : getInt signed w alg a b ws = some (v, ws')) :
    a ≤ v ∧ v ≤ b ∧ ∃ pre, ws = pre ++ ws' ∧ pre ≠ [] := by
  have hM : (b - a).toNat < M := by
    have hK : 2 ^ w ≤ M := Nat.pow_le_pow_right (by decide) h64
    have e2 : 2 ^ w = 2 * 2 ^ (w - 1) := by
      rw [show w = (w - 1) + 1 by omega, Nat.pow_succ]; simp; omega
    unfold InType at ha hb
    cases signed
    · simp only [Bool.false_eq_true, if_false] at ha hb; omega
    · simp only [if_true] at ha hb; omega
  rw [C147_get h0 h64 alg ha hb hab hw] at h
  obtain ⟨⟨r, gs⟩, h1, h2⟩ := Option.map_eq_some_iff.1 h
  obtain ⟨rfl, rfl⟩ := Prod.mk.inj h2
  obtain ⟨l1, l2⟩ := offset_le alg hM hw h1
  exact ⟨by omega, by omega, l2⟩

/-- C147: a call for fewer than `2^32` values takes the first word that is accepted, and has no result exactly if all are rejected. -/
theorem C147_first_partial {signed : Bool} {w : Nat} (h0 : 0 < w) (h64 : w ≤ 64) (alg : Alg) {a b : Int} (ha : InType signed w a) (hb : InType signed w b)
    (hab : a ≤ b) (hs : b - a < (W : Int) - 1) {ws : List Nat} (hw : ∀ g ∈ ws, g < W) :
    (getInt signed w alg a b ws = none ↔ ∀ g ∈ ws, accept alg ((b - a).toNat + 1) g = false) ∧
    ∀ v ws', getInt signed w alg a b ws = some (v, ws') ↔
      ∃ pre g, ws = pre ++ g :: ws' ∧ (∀ x ∈ pre, accept alg ((b - a).toNat + 1) x = false) ∧ accept alg ((b - a).toNat + 1) g = true ∧
        v = a + (result alg ((b - a).toNat + 1) g : Int) := by
  rw [C147_get h0 h64 alg ha hb hab hw]
  have e : offset alg (b - a).toNat ws = (firstWord (accept alg ((b - a).toNat + 1)) ws).map fun (g, gs) => (result alg ((b - a).toNat + 1) g, gs) := by
    unfold offset small
    have hW := W_eq
    rw [if_pos (by omega), if_pos (by omega)]
  rw [e]
  obtain ⟨f1, f2⟩ := firstWord_spec (accept alg ((b - a).toNat + 1)) ws
  refine ⟨by simp [f2], fun v ws' => ?_⟩
  simp only [Option.map_map, Option.map_eq_some_iff]
  constructor
  · rintro ⟨⟨g, gs⟩, h1, h2⟩
    obtain ⟨rfl, rfl⟩ := Prod.mk.inj h2
    obtain ⟨pre, h3, h4, h5⟩ := (f1 g gs).1 h1
    exact ⟨pre, g, h3, h5, h4, rfl⟩
  · rintro ⟨pre, g, h3, h5, h4, rfl⟩
    exact ⟨(g, ws'), (f1 g ws').2 ⟨pre, h3, h4, h5⟩, rfl⟩

/-- C147: each value of an interval of fewer than `2^32` values is given by equally many words. -/
theorem C147_each {signed : Bool} {w : Nat} (h0 : 0 < w) (h64 : w ≤ 64) (alg : Alg) {a b v : Int} (ha : InType signed w a) (hb : InType signed w b)
    (hs : b - a < (W : Int) - 1) (hv : a ≤ v ∧ v ≤ b) :
    ∃ g0, g0 + share alg ((b - a).toNat + 1) ≤ W ∧
      ∀ g, g < W → (getInt signed w alg a b [g] = some (v, []) ↔ g0 ≤ g ∧ g < g0 + share alg ((b - a).toNat + 1)) := by
  obtain ⟨_, g0, h1, h2⟩ := C147_uniform alg (r := (b - a).toNat + 1) (v := (v - a).toNat) (by omega) (by omega) (by omega)
  refine ⟨g0, h1, fun g hg => ?_⟩
  rw [(C147_first_partial h0 h64 alg ha hb (by omega) hs (ws := [g]) (by simpa using hg)).2, ← h2]
  constructor
  · rintro ⟨pre, g', e, _, h4, h5⟩
    cases pre with
    | nil =>
      simp only [List.nil_append, List.cons.injEq, and_true] at e
      subst e
      exact ⟨h4, by omega⟩
    | cons x pre => simp at e
  · rintro ⟨h4, h5⟩
    exact ⟨[], g, rfl, by simp, h4, by omega⟩

/-- C147: with `2^32` values the word itself is the value. -/
theorem C147_full {signed : Bool} {w : Nat} (h0 : 0 < w) (h64 : w ≤ 64) (alg : Alg) {a b : Int} (ha : InType signed w a) (hb : InType signed w b)
    (hs : b - a = (W : Int) - 1) {g : Nat} {ws : List Nat} (hw : ∀ x ∈ g :: ws, x < W) : getInt signed w alg a b (g :: ws) = some (a + (g : Int), ws) := by
  have hW := W_eq
  rw [C147_get h0 h64 alg ha hb (by omega) hw]
  unfold offset small
  rw [if_pos (by omega), if_neg (by omega)]
  rfl

/-- C147: each value of a larger interval is given by equally many pairs of words: by one second word and equally many first words. -/
theorem C147_pairs {signed : Bool} {w : Nat} (h0 : 0 < w) (h64 : w ≤ 64) (alg : Alg) {a b v : Int} (ha : InType signed w a) (hb : InType signed w b)
    (hs : (W : Int) ≤ b - a) (hv : a ≤ v ∧ v ≤ b) {g l : Nat} (hg : g < W) (hl : l < W) :
    getInt signed w alg a b [g, l] = some (v, []) ↔
      l = (v - a).toNat % W ∧ (if (b - a).toNat / W = W - 1 then g = (v - a).toNat / W
        else accept alg ((b - a).toNat / W + 1) g = true ∧ result alg ((b - a).toNat / W + 1) g = (v - a).toNat / W) := by
  have hW := W_eq
  have hM : (b - a).toNat < M := by
    have hK : 2 ^ w ≤ M := Nat.pow_le_pow_right (by decide) h64
    have e2 : 2 ^ w = 2 * 2 ^ (w - 1) := by
      rw [show w = (w - 1) + 1 by omega, Nat.pow_succ]; simp; omega
    unfold InType at ha hb
    cases signed
    · simp only [Bool.false_eq_true, if_false] at ha hb; omega
    · simp only [if_true] at ha hb; omega
  have hw : ∀ x ∈ [g, l], x < W := by simp [hg, hl]
  rw [C147_get h0 h64 alg ha hb (by omega) hw]
  have hV : (v - a).toNat ≤ (b - a).toNat := by omega
  have hu : ¬ (b - a).toNat ≤ W - 1 := by omega
  have hv' : v = a + ((v - a).toNat : Int) := by omega
  generalize (v - a).toNat = V at *
  generalize (b - a).toNat = u at *
  subst hv'
  have huW : u / W < W := by rw [Nat.div_lt_iff_lt_mul (by decide)]; exact hM
  have hend : large alg u 1 [] = none := by
    rw [large_succ alg hM 0 (by simp)]
    have : small alg (u / W) [] = none := by unfold small; split <;> rfl
    rw [this]
  have fin : ∀ h : Nat, h ≤ u / W → ((if u < W * h + l then large alg u 1 [] else some (W * h + l, [])) = some (V, []) ↔ l = V % W ∧ h = V / W) := by
    intro h hh
    rw [hend]
    have d := Nat.div_add_mod V W
    have m := Nat.mod_lt V (show 0 < W by decide)
    have uniq : W * h + l = V ↔ l = V % W ∧ h = V / W := by
      constructor
      · intro e
        subst e
        rw [Nat.mul_add_mod, Nat.mod_eq_of_lt hl, Nat.mul_add_div (by decide), Nat.div_eq_of_lt hl]
        simp
      · rintro ⟨rfl, rfl⟩; exact d
    split
    · rw [← uniq]
      constructor
      · intro h; cases h
      · intro h; omega
    · simp only [Option.some.injEq, Prod.mk.injEq, and_true, uniq]
  have e : (offset alg u [g, l]).map (fun x => (a + (x.1 : Int), x.2)) = some (a + (V : Int), []) ↔ offset alg u [g, l] = some (V, []) := by
    rw [Option.map_eq_some_iff]
    constructor
    · rintro ⟨⟨r, gs⟩, h1, h2⟩
      obtain ⟨h3, rfl⟩ := Prod.mk.inj h2
      have : r = V := by omega
      rw [h1, this]
    · intro h; exact ⟨_, h, rfl⟩
  refine e.trans ?_
  unfold offset
  rw [if_neg hu, show [g, l].length = 1 + 1 from rfl, large_succ alg hM 1 hw]
  by_cases hf : u / W = W - 1
  · have hsm : small alg (u / W) [g, l] = some (g, [l]) := by
      unfold small; rw [if_neg (by omega)]
    rw [hsm, if_pos hf]
    exact fin g (by omega)
  · rw [if_neg hf]
    have hc : u / W < W - 1 := by omega
    by_cases hacc : accept alg (u / W + 1) g = true
    · have hsm : small alg (u / W) [g, l] = some (result alg (u / W + 1) g, [l]) := by
        unfold small; rw [if_pos hc]; simp [firstWord, hacc]
      have hb : result alg (u / W + 1) g < u / W + 1 := C147_below alg (Nat.succ_pos (u / W)) hg hacc
      rw [hsm]
      refine (fin _ (by omega)).trans ?_
      simp [hacc]
    · have hacc' : accept alg (u / W + 1) g = false := by simpa using hacc
      simp only [hacc', Bool.false_eq_true, false_and, and_false, iff_false]
      have : ∀ x, small alg (u / W) [g, l] = some x → x.2 = [] := by
        intro x hx
        unfold small at hx
        rw [if_pos hc] at hx
        by_cases hal : accept alg (u / W + 1) l = true
        · simp [firstWord, hacc', hal] at hx; rw [← hx]
        · have : accept alg (u / W + 1) l = false := by simpa using hal
          simp [firstWord, hacc', this] at hx
      cases e2 : small alg (u / W) [g, l] with
      | none => simp
      | some x =>
        have := this x e2
        obtain ⟨h, ws1⟩ := x
        simp only at this
        subst this
        simp

/-- C147 is false if the engine goes on giving words that are rejected: however many there are, a call for three values has no result. -/
theorem C147_refuted (n : Nat) : getInt true 32 .product 1 3 (List.replicate n 0) = none ∧
    getInt true 32 .division 1 3 (List.replicate n 4294967295) = none := by
  constructor
  · refine (C147_first_partial (by decide) (by decide) .product (by decide) (by decide) (by decide) (by decide) ?_).1.2 ?_
    · intro g hg; rw [List.eq_of_mem_replicate hg]; decide
    · intro g hg; rw [List.eq_of_mem_replicate hg]; decide
  · refine (C147_first_partial (by decide) (by decide) .division (by decide) (by decide) (by decide) (by decide) ?_).1.2 ?_
    · intro g hg; rw [List.eq_of_mem_replicate hg]; decide
    · intro g hg; rw [List.eq_of_mem_replicate hg]; decide

end Helper.Randomiser.Ints
