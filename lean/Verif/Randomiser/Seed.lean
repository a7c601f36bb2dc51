set_option linter.unusedSectionVars false
/-!
# Property C148: the seed of the random generator (randomiser.hpp:42-57)

`std::mt19937` is the engine of the standard ([rand.eng.mers]), given by its recurrence. The number of the random device and the two clocks are arbitrary.
-/
namespace Helper.Randomiser.Seed

abbrev Word := BitVec 32

/-- Lines 46-49: the seed, computed in `std::mt19937::result_type`, which is `uint_fast32_t`, an unsigned type of `w ≥ 32` bits; the engine keeps its
lowest 32 bits (line 50). `sec` and `usec` are the counts of the two clocks. -/
def seedOf (w : Nat) (rd : Word) (sec usec : Int) : Word :=
  ((rd.setWidth w) ^^^ (BitVec.ofInt w sec + BitVec.ofInt w usec)).setWidth 32

/-- The first 624 words of the state. -/
def init (seed : Word) : Nat → Word
  | 0 => seed
  | i + 1 =>
    let y := init seed i
    1812433253#32 * (y ^^^ (y >>> 30)) + BitVec.ofNat 32 (i + 1)

/-- The upper bit of one word and the other bits of the next. -/
def join (a b : Word) : Word := (a &&& 0x80000000#32) ||| (b &&& 0x7fffffff#32)

/-- The product with the matrix of the engine. -/
def mat (y : Word) : Word := (y >>> 1) ^^^ (if y.getLsbD 0 then 0x9908b0df#32 else 0#32)

/-- The words of the state. -/
def state (seed : Word) (n : Nat) : Word :=
  if n < 624 then init seed n
  else state seed (n - 227) ^^^ mat (join (state seed (n - 624)) (state seed (n - 623)))
termination_by n

/-- The four steps that make a word of the engine from a word of the state. -/
def t1 (y : Word) : Word := y ^^^ (y >>> 11)
def t2 (y : Word) : Word := y ^^^ ((y <<< 7) &&& 0x9d2c5680#32)
def t3 (y : Word) : Word := y ^^^ ((y <<< 15) &&& 0xefc60000#32)
def t4 (y : Word) : Word := y ^^^ (y >>> 18)

def temper (y : Word) : Word := t4 (t3 (t2 (t1 y)))

/-- The `n`-th word that the engine gives. -/
def output (seed : Word) (n : Nat) : Word := temper (state seed (n + 624))

/-! ## Lemmas -/

/-- A word whose every bit is false or follows from a higher one is zero. -/
theorem down {k : Nat} (hk : 0 < k) {d : Word} (h : ∀ i, d.getLsbD i = true → d.getLsbD (i + k) = true) : d = 0#32 := by
  apply BitVec.eq_of_getLsbD_eq
  intro i _
  have key : ∀ n i, 32 - i ≤ n → d.getLsbD i = false := by
    intro n
    induction n with
    | zero => intro i hi; exact BitVec.getLsbD_of_ge d i (by omega)
    | succ n ih =>
      intro i hi
      by_cases hi32 : 32 ≤ i
      · exact BitVec.getLsbD_of_ge d i hi32
      · have h1 := ih (i + k) (by omega)
        cases e : d.getLsbD i with
        | false => rfl
        | true => rw [h i e] at h1; cases h1
  rw [key 32 i (by omega)]
  simp

theorem up {k : Nat} (hk : 0 < k) {d : Word} (h : ∀ i, d.getLsbD i = true → k ≤ i ∧ d.getLsbD (i - k) = true) : d = 0#32 := by
  apply BitVec.eq_of_getLsbD_eq
  intro i _
  have key : ∀ n i, i < n → d.getLsbD i = false := by
    intro n
    induction n with
    | zero => intro i hi; omega
    | succ n ih =>
      intro i hi
      cases e : d.getLsbD i with
      | false => rfl
      | true =>
        obtain ⟨h1, h2⟩ := h i e
        rw [ih (i - k) (by omega)] at h2
        cases h2
  rw [key 32 i (by assumption)]
  simp

theorem xor_self_zero {x y : Word} (h : x ^^^ y = 0#32) : x = y := by
  have : x ^^^ y ^^^ y = 0#32 ^^^ y := by rw [h]
  rwa [BitVec.xor_assoc, BitVec.xor_self, BitVec.xor_zero, BitVec.zero_xor] at this

theorem bxor_true {a b c d : Bool} (h : (a ^^ b) = (c ^^ d)) : (a ^^ c) = (b ^^ d) := by
  cases a <;> cases b <;> cases c <;> cases d <;> simp_all

theorem right_inj {k : Nat} (hk : 0 < k) {x y : Word} (h : x ^^^ (x >>> k) = y ^^^ (y >>> k)) : x = y := by
  apply xor_self_zero
  apply down hk
  intro i hi
  have e := congrArg (fun z => BitVec.getLsbD z i) h
  simp only [BitVec.getLsbD_xor, BitVec.getLsbD_ushiftRight] at e hi ⊢
  have := bxor_true e
  rw [hi] at this
  rw [Nat.add_comm i k]
  exact this.symm

theorem left_inj {k : Nat} (hk : 0 < k) (m : Word) {x y : Word} (h : x ^^^ ((x <<< k) &&& m) = y ^^^ ((y <<< k) &&& m)) : x = y := by
  apply xor_self_zero
  apply up hk
  intro i hi
  have e := congrArg (fun z => BitVec.getLsbD z i) h
  simp only [BitVec.getLsbD_xor, BitVec.getLsbD_and, BitVec.getLsbD_shiftLeft] at e hi ⊢
  have h1 := bxor_true e
  rw [hi] at h1
  by_cases hki : k ≤ i
  · refine ⟨hki, ?_⟩
    have : ¬ i < k := by omega
    simp only [this, decide_false, Bool.not_false, Bool.and_true] at h1
    revert h1
    cases x.getLsbD (i - k) <;> cases y.getLsbD (i - k) <;> simp
  · have : i < k := by omega
    simp [this] at h1

theorem temper_inj {x y : Word} (h : temper x = temper y) : x = y :=
  right_inj (by decide) (left_inj (by decide) _ (left_inj (by decide) _ (right_inj (by decide) h)))

theorem mat_inj {x y : Word} (h : mat x = mat y) : x = y := by
  have h31 := congrArg (fun z => BitVec.getLsbD z 31) h
  have top : ∀ z : Word, (mat z).getLsbD 31 = z.getLsbD 0 := by
    intro z
    simp only [mat, BitVec.getLsbD_xor, BitVec.getLsbD_ushiftRight]
    rw [BitVec.getLsbD_of_ge z (1 + 31) (by decide)]
    cases z.getLsbD 0 <;> decide
  simp only [top] at h31
  have hs : x >>> 1 = y >>> 1 := by
    simp only [mat, h31] at h
    exact (BitVec.xor_left_inj _).1 h
  apply BitVec.eq_of_getLsbD_eq
  intro i hi
  cases i with
  | zero => exact h31
  | succ i =>
    have := congrArg (fun z => BitVec.getLsbD z i) hs
    simp only [BitVec.getLsbD_ushiftRight] at this
    rw [Nat.add_comm i 1]
    exact this

theorem join_bit (a b : Word) {i : Nat} (h : i < 32) : (join a b).getLsbD i = if i = 31 then a.getLsbD 31 else b.getLsbD i := by
  have m1 : ∀ i : Nat, i < 32 → (0x80000000#32).getLsbD i = decide (i = 31) := by decide
  have m2 : ∀ i : Nat, i < 32 → (0x7fffffff#32).getLsbD i = decide (i ≠ 31) := by decide
  simp only [join, BitVec.getLsbD_or, BitVec.getLsbD_and, m1 i h, m2 i h]
  by_cases e : i = 31
  · subst e; simp
  · simp [e]

/-- A word is known from its upper bit, joined with the next word, and from its other bits, joined with the word before. -/
theorem join_mid {a b c a' b' c' : Word} (h1 : join a b = join a' b') (h2 : join b c = join b' c') : b = b' := by
  apply BitVec.eq_of_getLsbD_eq
  intro i hi
  by_cases e : i = 31
  · have := congrArg (fun z => BitVec.getLsbD z 31) h2
    simp only [join_bit _ _ (show 31 < 32 by decide), if_pos] at this
    rw [e]; exact this
  · have := congrArg (fun z => BitVec.getLsbD z i) h1
    simp only [join_bit _ _ hi, if_neg e] at this
    exact this

theorem init_one_inj {s s' : Word} (h : init s 1 = init s' 1) : s = s' := by
  simp only [init] at h
  have h := (BitVec.add_left_inj _).1 h
  have h2 := congrArg (fun z => 2520285293#32 * z) h
  simp only [← BitVec.mul_assoc] at h2
  have e : 2520285293#32 * 1812433253#32 = 1#32 := by decide
  rw [e, BitVec.one_mul, BitVec.one_mul] at h2
  exact right_inj (by decide) h2

theorem state_init (seed : Word) {n : Nat} (h : n < 624) : state seed n = init seed n := by rw [state, if_pos h]

theorem state_next (seed : Word) (k : Nat) :
    state seed (k + 624) = state seed (k + 397) ^^^ mat (join (state seed k) (state seed (k + 1))) := by
  rw [state, if_neg (by omega), show k + 624 - 227 = k + 397 by omega, show k + 624 - 624 = k by omega, show k + 624 - 623 = k + 1 by omega]

/-! ## C148 -/

/-- C148: the width of the type of the seed has no effect, nor have the conversions of the counts of the clocks. -/
theorem C148_width {w : Nat} (hw : 32 ≤ w) (rd : Word) (sec usec : Int) : seedOf w rd sec usec = rd ^^^ BitVec.ofInt 32 (sec + usec) := by
  have hd : ((2 ^ 32 : Nat) : Int) ∣ ((2 ^ w : Nat) : Int) := Int.natCast_dvd_natCast.2 (Nat.pow_dvd_pow 2 hw)
  have e : ∀ z : Int, (BitVec.ofInt w z).setWidth 32 = BitVec.ofInt 32 z := by
    intro z
    apply BitVec.eq_of_toInt_eq
    rw [BitVec.toInt_setWidth, BitVec.toInt_ofInt, BitVec.toNat_ofInt]
    rw [Int.toNat_of_nonneg (Int.emod_nonneg _ (by have := Nat.two_pow_pos w; omega))]
    rw [Int.bmod_def, Int.bmod_def, Int.emod_emod_of_dvd z hd]
  unfold seedOf
  rw [← BitVec.ofInt_add, BitVec.setWidth_xor, e, BitVec.setWidth_setWidth_of_le rd hw]
  simp

/-- C148: when two generators get the same seed. -/
theorem C148_seed_iff {w w' : Nat} (hw : 32 ≤ w) (hw' : 32 ≤ w') (rd rd' : Word) (sec usec sec' usec' : Int) :
    seedOf w rd sec usec = seedOf w' rd' sec' usec' ↔ rd ^^^ rd' = BitVec.ofInt 32 (sec + usec) ^^^ BitVec.ofInt 32 (sec' + usec') := by
  rw [C148_width hw, C148_width hw']
  generalize BitVec.ofInt 32 (sec + usec) = t
  generalize BitVec.ofInt 32 (sec' + usec') = t'
  constructor
  · intro h
    apply BitVec.eq_of_getLsbD_eq
    intro i _
    have := congrArg (fun z => BitVec.getLsbD z i) h
    simp only [BitVec.getLsbD_xor] at this ⊢
    exact bxor_true this
  · intro h
    apply BitVec.eq_of_getLsbD_eq
    intro i _
    have := congrArg (fun z => BitVec.getLsbD z i) h
    simp only [BitVec.getLsbD_xor] at this ⊢
    exact bxor_true this

/-- C148: at any time every seed is given by exactly one number of the random device. -/
theorem C148_device {w : Nat} (hw : 32 ≤ w) (sec usec : Int) (s : Word) :
    ∃ rd, seedOf w rd sec usec = s ∧ ∀ rd', seedOf w rd' sec usec = s → rd' = rd := by
  refine ⟨s ^^^ BitVec.ofInt 32 (sec + usec), ?_, fun rd' h => ?_⟩
  · rw [C148_width hw, BitVec.xor_assoc, BitVec.xor_self, BitVec.xor_zero]
  · rw [C148_width hw] at h
    rw [← h, BitVec.xor_assoc, BitVec.xor_self, BitVec.xor_zero]

/-- C148: with the same number of the device, the seeds are the same iff the sums of the counts of the clocks differ by a multiple of `2^32`. -/
theorem C148_time {w : Nat} (hw : 32 ≤ w) (rd : Word) (sec usec sec' usec' : Int) :
    seedOf w rd sec usec = seedOf w rd sec' usec' ↔ (sec + usec) % 2 ^ 32 = (sec' + usec') % 2 ^ 32 := by
  rw [C148_seed_iff hw hw, BitVec.xor_self]
  constructor
  · intro h
    have h := congrArg BitVec.toNat (xor_self_zero h.symm)
    rw [BitVec.toNat_ofInt, BitVec.toNat_ofInt] at h
    have : ((2 ^ 32 : Nat) : Int) = 2 ^ 32 := by decide
    rw [this] at h
    omega
  · intro h
    have : BitVec.ofInt 32 (sec + usec) = BitVec.ofInt 32 (sec' + usec') := by
      apply BitVec.eq_of_toNat_eq
      rw [BitVec.toNat_ofInt, BitVec.toNat_ofInt]
      have : ((2 ^ 32 : Nat) : Int) = 2 ^ 32 := by decide
      rw [this, h]
    rw [this, BitVec.xor_self]

/-- C148: engines with different seeds differ in one of their first 624 words. -/
theorem C148_words {s s' : Word} (h : ∀ n, n < 624 → output s n = output s' n) : s = s' := by
  have hx : ∀ k, k < 624 → state s (k + 624) = state s' (k + 624) := fun k hk => temper_inj (h k hk)
  have hY : ∀ j k, k < 624 → 624 ≤ k + j → join (state s k) (state s (k + 1)) = join (state s' k) (state s' (k + 1)) := by
    intro j
    induction j with
    | zero => intro k h1 h2; omega
    | succ j ih =>
      intro k h1 h2
      have hmid : state s (k + 397) = state s' (k + 397) := by
        by_cases hk : 624 ≤ k + 397
        · have := hx (k + 397 - 624) (by omega)
          rwa [show k + 397 - 624 + 624 = k + 397 by omega] at this
        · have a := ih (k + 396) (by omega) (by omega)
          have b := ih (k + 397) (by omega) (by omega)
          exact join_mid a b
      have e := hx k h1
      rw [state_next, state_next, hmid] at e
      exact mat_inj ((BitVec.xor_right_inj _).1 e)
  have h1 : state s 1 = state s' 1 := join_mid (hY 624 0 (by decide) (by decide)) (hY 624 1 (by decide) (by decide))
  rw [state_init s (by decide), state_init s' (by decide)] at h1
  exact init_one_inj h1

/-- C148: hence two generators give the same words iff they have the same seed, that is, iff the numbers of the device and the times fit. -/
theorem C148_iff_partial {w w' : Nat} (hw : 32 ≤ w) (hw' : 32 ≤ w') (rd rd' : Word) (sec usec sec' usec' : Int) :
    (∀ n, output (seedOf w rd sec usec) n = output (seedOf w' rd' sec' usec') n) ↔
      rd ^^^ rd' = BitVec.ofInt 32 (sec + usec) ^^^ BitVec.ofInt 32 (sec' + usec') := by
  rw [← C148_seed_iff hw hw']
  exact ⟨fun h => C148_words fun n _ => h n, fun h n => by rw [h]⟩

/-- C148 is false: with a random device that gives the same numbers in every run, which the standard allows, a run 4294.963002 seconds after another draws
the same words. -/
theorem C148_refuted (rd : Word) (sec usec : Int) (n : Nat) :
    output (seedOf 64 rd sec usec) n = output (seedOf 64 rd (sec + 4294) (usec + 4294963002)) n := by
  rw [(C148_time (by decide) rd sec usec (sec + 4294) (usec + 4294963002)).2 (by omega)]

end Helper.Randomiser.Seed
