import Verif.Double.Field
import Verif.Seq.Chars
/-!
# Property C120: vectors of doubles are read back

`operator<<` of `std::vector<double>` (container.hpp:127-135) and `read_sequence` (stlio.hpp:144-190).
-/
set_option linter.unusedSectionVars false
namespace Helper.Double
open IStream OStream Helper.Seq

/-! Specification -/

/-- A decimal number of at most `P` significant digits. -/
def Dec (P : Nat) (d : Rat) : Prop := ∃ m k : Int, -10 ^ P < m ∧ m < 10 ^ P ∧ d = (m : Rat) * 10 ^ k

/-! ### The number that is written -/

theorem dec_neg {P : Nat} {d : Rat} (h : Dec P d) : Dec P (-d) := by
  obtain ⟨m, k, h1, h2, h3⟩ := h
  refine ⟨-m, k, by omega, by omega, ?_⟩
  rw [h3, Rat.intCast_neg]; grind

theorem dec_zero (P : Nat) : Dec P 0 := by
  have : (0 : Int) < 10 ^ P := Int.pow_pos (by decide)
  exact ⟨0, 0, by omega, by omega, by simp⟩

theorem decValue_dec {P : Nat} (hP : 0 < P) {x : Rat} (hx : 0 < x) : Dec P (decValue P (decimal P x)) := by
  have h := decimal_spec hP hx
  have h2 : ((decimal P x).1 : Int) < 10 ^ P := by exact_mod_cast h.2
  exact ⟨(decimal P x).1, _, by omega, h2, by rw [decValue, Rat.intCast_natCast]⟩

theorem decValue_nearest {P : Nat} (hP : 0 < P) {x : Rat} (hx : 0 < x) {y : Rat} (hy : Dec P y) :
    dist x (decValue P (decimal P x)) ≤ dist x y := by
  obtain ⟨m, k, h1, h2, rfl⟩ := hy
  have hu := unit_pos hP hx
  rw [decimal_value hP hx]
  by_cases hk : dexpo x + 1 - (P : Int) ≤ k
  · obtain ⟨n, hn⟩ : ∃ n : Nat, k = n + (dexpo x + 1 - (P : Int)) := ⟨(k - (dexpo x + 1 - (P : Int))).toNat, by omega⟩
    have e : (m : Rat) * 10 ^ k = ((m * 10 ^ n : Int) : Rat) * unit P x := by
      rw [hn, ten_add, ten_nat, Rat.intCast_mul, unit]
      have : ((10 ^ n : Nat) : Rat) = ((10 ^ n : Int) : Rat) := by norm_cast
      rw [this]; grind
    have h := Rat.mul_le_mul_of_nonneg_right (nearestInt_le (x / unit P x) (m * 10 ^ n)) (Rat.le_of_lt hu)
    rw [← dist_mul hu, ← dist_mul hu, div_unit hP hx, ← e] at h
    exact h
  · have hlow : (m : Rat) * 10 ^ k ≤ ((10 ^ (P - 1) : Nat) : Rat) * unit P x := by
      have hm : (m : Rat) ≤ ((10 ^ P : Nat) : Rat) := by
        have : m ≤ 10 ^ P := by omega
        exact_mod_cast this
      have a := Rat.mul_le_mul_of_nonneg_right hm (Rat.le_of_lt (ten_pos k))
      have b : ((10 ^ P : Nat) : Rat) * 10 ^ k ≤ ((10 ^ (P - 1) : Nat) : Rat) * unit P x := by
        rw [← ten_nat, ← ten_nat, unit, ← ten_add, ← ten_add]
        exact ten_mono (by omega)
      grind
    have hs := (unit_spec hP hx).1
    have h := Rat.mul_le_mul_of_nonneg_right (nearestInt_le (x / unit P x) (10 ^ (P - 1))) (Rat.le_of_lt hu)
    rw [← dist_mul hu, ← dist_mul hu, div_unit hP hx] at h
    have e : ((10 ^ (P - 1) : Int) : Rat) = ((10 ^ (P - 1) : Nat) : Rat) := by norm_cast
    rw [e] at h
    refine Rat.le_trans h ?_
    unfold dist
    split <;> split <;> grind

theorem eq_of_dist {x y : Rat} (h : dist x y ≤ 0) : x = y := by
  unfold dist at h
  split at h <;> grind

theorem decValue_exact {P : Nat} (hP : 0 < P) {d : Rat} (hd : 0 < d) (h : Dec P d) : decValue P (decimal P d) = d := by
  have := decValue_nearest hP hd h
  have e : dist d d = 0 := by unfold dist; split <;> grind
  rw [e] at this
  exact (eq_of_dist this).symm

theorem written_neg (P : Nat) (x : Rat) : written P (-x) = -written P x := by
  unfold written
  by_cases h0 : x = 0
  · subst h0; rfl
  · rw [if_neg (by grind), if_neg h0]
    by_cases h : x < 0
    · rw [if_neg (by grind), if_pos h]; grind
    · rw [if_pos (by grind), if_neg h]
      congr 3
      grind

theorem written_pos (P : Nat) {x : Rat} (hx : 0 < x) : written P x = decValue (max P 1) (decimal (max P 1) x) := by
  rw [written, if_neg (by grind), if_neg (by grind)]

/-- C120: the text denotes the decimal number of `P` significant digits that is nearest to the element. -/
theorem C120_nearest (P : Nat) (x : Rat) :
    Dec (max P 1) (written P x) ∧ ∀ y, Dec (max P 1) y → dist x (written P x) ≤ dist x y := by
  have hP : 0 < max P 1 := by omega
  refine sign_cases (P := fun x => Dec (max P 1) (written P x) ∧ ∀ y, Dec (max P 1) y → dist x (written P x) ≤ dist x y) ?_ ?_ ?_ x
  · refine ⟨dec_zero _, fun y _ => ?_⟩
    show dist 0 0 ≤ dist 0 y
    unfold dist
    split <;> split <;> grind
  · intro x hx
    rw [written_pos P hx]
    exact ⟨decValue_dec hP hx, fun y hy => decValue_nearest hP hx hy⟩
  · intro x _ ⟨h1, h2⟩
    rw [written_neg]
    refine ⟨dec_neg h1, fun y hy => ?_⟩
    have := h2 (-y) (dec_neg hy)
    rw [dist_neg]
    rw [← dist_neg x (-y), Rat.neg_neg] at this
    exact this

/-- C120: the error of the text is at most half a unit of the last digit, so at most `1 / (2 * 10^(P-1))` of the element. -/
theorem C120_error (P : Nat) (x : Rat) : 2 * dist x (written P x) * ((10 ^ (max P 1 - 1) : Nat) : Rat) ≤ dist x 0 := by
  have hP : 0 < max P 1 := by omega
  refine sign_cases (P := fun x => 2 * dist x (written P x) * ((10 ^ (max P 1 - 1) : Nat) : Rat) ≤ dist x 0) ?_ ?_ ?_ x
  · show 2 * dist 0 0 * _ ≤ dist 0 0
    unfold dist
    split <;> grind
  · intro x hx
    have e0 : dist x 0 = x := by unfold dist; split <;> grind
    rw [written_pos P hx, e0]
    exact decimal_close hP hx
  · intro x _ h
    rw [written_neg, dist_neg]
    have : dist (-x) 0 = dist x 0 := by have := dist_neg x 0; simpa using this
    rw [this]
    exact h

/-! ### Elements -/

/-- The element that is read back. -/
def back (p P : Nat) (x : Rat) : Rat := round p (written P x)

/-- Few digits: the nearest number of the format does not lose them. -/
theorem written_round (dp : Char) {p P : Nat} (hp : 0 < p) (hP : 0 < P) (h : 2 * 10 ^ P < 2 ^ p) {d : Rat} (hd : Dec P d) :
    written P (round p d) = d ∧ text dp P (round p d) = text dp P d := by
  have hmax : max P 1 = P := by omega
  have key : ∀ d, 0 < d → Dec P d → decimal P (round p d) = decimal P d := by
    intro d hpos hd
    obtain ⟨a, b⟩ := decimal_spec hP hpos
    have hv := decValue_exact hP hpos hd
    rw [decValue] at hv
    have he := C102_error hp d
    have e0 : dist d 0 = d := by unfold dist; split <;> grind
    rw [e0, dist_comm] at he
    have hlt : ((2 * 10 ^ P : Nat) : Rat) < ((2 ^ p : Nat) : Rat) := by exact_mod_cast h
    have hdist : dist (round p d) d * ((2 * 10 ^ P : Nat) : Rat) < d := by
      have h0 := dist_nonneg (round p d) d
      by_cases hz : dist (round p d) d = 0
      · rw [hz]; grind
      · have := Rat.mul_lt_mul_of_pos_left hlt (show 0 < dist (round p d) d by grind)
        grind
    have := decimal_unique hP (k := (decimal P d).2 + 1 - (P : Int)) (x := round p d) a b (by rw [hv]; exact hdist)
    rw [this, show (decimal P d).2 + 1 - (P : Int) + P - 1 = (decimal P d).2 by omega]
  have pos : ∀ d, 0 < d → Dec P d → written P (round p d) = d := by
    intro d hpos hd
    rw [written_pos P (round_pos hp hpos), hmax, key d hpos hd, decValue_exact hP hpos hd]
  by_cases h0 : d = 0
  · subst h0; exact ⟨rfl, rfl⟩
  · by_cases hneg : d < 0
    · have hpos : 0 < -d := by grind
      have hr : round p d = -round p (-d) := by rw [round_neg]; grind
      have hrp := round_pos hp hpos
      refine ⟨by rw [hr, written_neg, pos _ hpos (dec_neg hd)]; grind, ?_⟩
      have e1 : -round p d = round p (-d) := by rw [hr]; grind
      unfold text
      simp only [hmax, e1, key _ hpos (dec_neg hd)]
      rw [if_neg (by rw [hr]; grind), if_pos (by rw [hr]; grind), if_neg h0, if_pos hneg]
    · have hpos : 0 < d := by grind
      have hrp := round_pos hp hpos
      refine ⟨pos _ hpos hd, ?_⟩
      unfold text
      simp only [hmax, key _ hpos hd]
      rw [if_neg (by grind), if_neg (by grind), if_neg h0, if_neg hneg]

/-- C120: with few digits, exactly the numbers nearest to a decimal number of that many digits are read back. -/
theorem C120_few {p P : Nat} (hp : 0 < p) (hP : 0 < P) (h : 2 * 10 ^ P < 2 ^ p) (x : Rat) :
    back p P x = x ↔ ∃ d, Dec P d ∧ x = round p d := by
  have hmax : max P 1 = P := by omega
  constructor
  · intro hx
    have hd := (C120_nearest P x).1
    rw [hmax] at hd
    exact ⟨written P x, hd, hx.symm⟩
  · rintro ⟨d, hd, rfl⟩
    rw [back, (written_round '.' hp hP h hd).1]

/-- The number that a text denotes has that text. -/
theorem text_written (dp : Char) (P : Nat) (x : Rat) : text dp P (written P x) = text dp P x := by
  have hP : 0 < max P 1 := by omega
  have vpos : ∀ x, 0 < x → 0 < decValue (max P 1) (decimal (max P 1) x) := by
    intro x hx
    have h := (decimal_spec hP hx).1
    have : 0 < (decimal (max P 1) x).1 := Nat.lt_of_lt_of_le (Nat.pow_pos (by decide)) h
    exact Rat.mul_pos (by exact_mod_cast this) (ten_pos _)
  have key : ∀ x, 0 < x → decimal (max P 1) (decValue (max P 1) (decimal (max P 1) x)) = decimal (max P 1) x := by
    intro x hx
    obtain ⟨a, b⟩ := decimal_spec hP hx
    have e : ∀ z : Rat, dist z z = 0 := by intro z; unfold dist; split <;> grind
    have hv := vpos x hx
    have := decimal_unique hP (k := (decimal (max P 1) x).2 + 1 - ((max P 1 : Nat) : Int)) (x := decValue (max P 1) (decimal (max P 1) x)) a b
      (by rw [decValue, e, Rat.zero_mul]; exact hv)
    rw [this, show (decimal (max P 1) x).2 + 1 - ((max P 1 : Nat) : Int) + (max P 1 : Nat) - 1 = (decimal (max P 1) x).2 by omega]
  unfold written text
  simp only
  by_cases h0 : x = 0
  · rw [if_pos h0, if_pos rfl, if_pos h0]
  · rw [if_neg h0, if_neg h0]
    by_cases hneg : x < 0
    · have hx : 0 < -x := by grind
      have hv := vpos _ hx
      rw [if_pos hneg, if_pos hneg, Rat.neg_neg, key _ hx, if_neg (by grind), if_pos (by grind)]
    · have hx : 0 < x := by grind
      have hv := vpos _ hx
      rw [if_neg hneg, if_neg hneg, key _ hx, if_neg (by grind), if_neg (by grind)]

/-- C120: with few digits, what is read back is written with the same text again, and read back unchanged. -/
theorem C120_stable (dp : Char) {p P : Nat} (hp : 0 < p) (hP : 0 < P) (h : 2 * 10 ^ P < 2 ^ p) (x : Rat) :
    text dp P (back p P x) = text dp P x ∧ back p P (back p P x) = back p P x := by
  have hmax : max P 1 = P := by omega
  have hd := (C120_nearest P x).1
  rw [hmax] at hd
  exact ⟨(written_round dp hp hP h hd).2.trans (text_written dp P x), (C120_few hp hP h _).2 ⟨_, hd, rfl⟩⟩

/-- C120: with many digits every number of the format is read back. -/
theorem C120_many {p P : Nat} (hp : 0 < p) (h : 2 ^ p < 10 ^ (P - 1)) {x : Rat} (hf : Float p x) : back p P x = x := by
  have hP : 0 < P := by
    apply Classical.byContradiction
    intro h0
    obtain rfl : P = 0 := by omega
    have : 0 < 2 ^ p := Nat.pow_pos (by decide)
    rw [Nat.zero_sub, Nat.pow_zero] at h; omega
  have hmax : max P 1 = P := by omega
  unfold back
  refine sign_cases (P := fun x => Float p x → round p (written P x) = x) ?_ ?_ ?_ x hf
  · intro _; rfl
  · intro x hx hf
    rw [written_pos P hx, hmax]
    exact round_decimal hp hP h hx hf
  · intro x _ ih hf
    have := ih (by have := float_neg hf; rwa [Rat.neg_neg] at this)
    rw [written_neg, round_neg, this]

/-! ### Vectors -/

theorem goodPoint_dot : GoodPoint '.' := ⟨rfl, by decide, by decide, by decide⟩

theorem writesText_double (dp : Char) (P : Nat) : WritesText (put dp P) (text dp P) := fun _ _ hf hw => put_text hf hw _

theorem readsAs_double {dp : Char} (hdp : GoodPoint dp) (p P : Nat) (x : Rat) : ReadsAs (fun s => some (.ok (read dp p s 0))) (text dp P x) (back p P x) := by
  intro s d r hs hd hr
  show some (Res.ok (read dp p s 0)) = _
  rw [read_text hdp p P x 0 hs ⟨d, r, rfl, hd⟩ hr]
  rfl

/-- C120: what is read when a vector has been written: each element is replaced by `back` of it, and exactly what was written is consumed. -/
theorem C120_read {dp : Char} (hdp : GoodPoint dp) (p P : Nat) (xs v : List Rat) (fuel : Nat) (hf : xs.length + 2 ≤ fuel) (rest : List Char) :
    ∃ s, readVector fuel (fun s => read dp p s 0) (IStream.ofList ((printVector (put dp P) .fresh xs).out ++ rest)) v
        = some (.ok (xs.map (back p P), s)) ∧ s.rest = rest ∧ s.good = true := by
  rw [writtenText (writesText_double dp P)]
  unfold readVector
  rw [← C82_same (fun s => read dp p s 0) fuel _ v]
  have hs := plain_ofList ('[' :: (sepText [','] (xs.map (text dp P)) ++ [']']) ++ rest)
  cases xs with
  | nil =>
    have h1 := readChar_split hs (b := []) (x := '[') (r := ']' :: rest) blank_nil (by decide) rfl none
    have hp1 := adv_plain hs ['['] (']' :: rest)
    have h2 := readChar_split hp1 (b := []) (x := ']') (r := rest) blank_nil (by decide) rfl (some '[')
    simp only [List.nil_append, adv_adv] at h1 h2
    obtain ⟨fuel, rfl⟩ : ∃ k, fuel = k + 1 := ⟨fuel - 1, by omega⟩
    refine ⟨_, by simp only [readSequenceX, h1, h2]; simp [readLoopX]; rfl, rfl, rfl⟩
  | cons c cs =>
    have hb : Begins (sepText [','] ((c :: cs).map (text dp P))) := begins_sep (text_begins dp P c)
    have h1 := sequenceX_start (rd := fun s => some (.ok (read dp p s 0))) hs hb (rest := ']' :: rest) (by simp [IStream.ofList]) fuel
    have h2 := loopX_vals (rd := fun s => some (.ok (read dp p s 0))) (txt := text dp P) (val := back p P) c cs
      (fun y _ => readsAs_double hdp p P y) fuel []
      ((IStream.ofList ('[' :: (sepText [','] ((c :: cs).map (text dp P)) ++ [']']) ++ rest)).adv ['[']
        (sepText [','] ((c :: cs).map (text dp P)) ++ ']' :: rest)) rest (by simp at hf; omega) (adv_plain hs _ _) rfl
    refine ⟨_, by rw [h1, h2]; rfl, rfl, ?_⟩
    rfl

/-- **C120** (partial: the stream's precision is at least 17, and the decimal point is not a comma). A vector of doubles nested to any depth is read back. -/
theorem C120_seventeen_partial {dp : Char} (hdp : GoodPoint dp) (P : Nat) (hP : 17 ≤ P) (d : Nat) (x : Nest Rat (d + 1)) (hx : ∀ y ∈ leaves (d + 1) x, Float 53 y) :
    ∃ n, ∀ fuel, n ≤ fuel → ∀ rest, ∃ s, readNest fuel (fun s => some (.ok (read dp 53 s 0))) (d + 1)
        (IStream.ofList ((printNest (put dp P) (d + 1) .fresh x).out ++ rest)) = some (.ok (x, s)) ∧
      s.rest = rest ∧ s.good = true := by
  have hout := (writes_nest (writesText_double dp P) (d + 1) .fresh x rfl rfl).1
  have h : 2 ^ 53 < 10 ^ (P - 1) := Nat.lt_of_lt_of_le (by decide) (Nat.pow_le_pow_right (n := 10) (by decide) (show 16 ≤ P - 1 by omega))
  obtain ⟨n, hn⟩ := nest_reads (rd := fun _ s => some (.ok (read dp 53 s 0))) (text_begins dp P) d x
    (fun y hy => ⟨0, fun _ _ => by have := readsAs_double hdp 53 P y; rwa [C120_many (by decide) h (hx y hy)] at this⟩)
  exact ⟨n, fun fuel hf rest => ⟨_, hn fuel hf _ rest (plain_ofList _) (by rw [hout]; rfl), rfl, rfl⟩⟩

/-- **C120** (partial: the precision is from 1 to 15, as by default, the decimal point is not a comma, and each element is the double nearest to a decimal number of that many
significant digits). A vector of doubles nested to any depth is read back. -/
theorem C120_default_partial {dp : Char} (hdp : GoodPoint dp) (P : Nat) (h1 : 1 ≤ P) (h2 : P ≤ 15) (d : Nat) (x : Nest Rat (d + 1))
    (hx : ∀ y ∈ leaves (d + 1) x, ∃ z, Dec P z ∧ y = round 53 z) :
    ∃ n, ∀ fuel, n ≤ fuel → ∀ rest, ∃ s, readNest fuel (fun s => some (.ok (read dp 53 s 0))) (d + 1)
        (IStream.ofList ((printNest (put dp P) (d + 1) .fresh x).out ++ rest)) = some (.ok (x, s)) ∧
      s.rest = rest ∧ s.good = true := by
  have hout := (writes_nest (writesText_double dp P) (d + 1) .fresh x rfl rfl).1
  have h : 2 * 10 ^ P < 2 ^ 53 := Nat.lt_of_le_of_lt (Nat.mul_le_mul_left 2 (Nat.pow_le_pow_right (n := 10) (by decide) h2)) (by decide)
  obtain ⟨n, hn⟩ := nest_reads (rd := fun _ s => some (.ok (read dp 53 s 0))) (text_begins dp P) d x
    (fun y hy => ⟨0, fun _ _ => by have := readsAs_double hdp 53 P y; rwa [(C120_few (by decide) h1 h y).2 (hx y hy)] at this⟩)
  exact ⟨n, fun fuel hf rest => ⟨_, hn fuel hf _ rest (plain_ofList _) (by rw [hout]; rfl), rfl, rfl⟩⟩

/-- C120 is false with the default precision: the vector of 1234567 is read back as that of 1234570, without an error. -/
theorem C120_refuted (v : List Rat) : Float 53 1234567 ∧ (printVector (put '.' 6) .fresh [1234567]).out = "[1.23457e+06]".toList ∧
    ∃ s, readVector 3 (fun s => read '.' 53 s 0) (IStream.ofList (printVector (put '.' 6) .fresh [1234567]).out) v = some (.ok ([1234570], s)) ∧ s.good = true := by
  refine ⟨⟨1234567, 0, by decide, by decide, by decide +kernel⟩, by decide +kernel, ?_⟩
  obtain ⟨s, h1, _, h3⟩ := C120_read goodPoint_dot 53 6 [1234567] v 3 (by decide) []
  rw [List.append_nil] at h1
  exact ⟨s, by rw [h1]; congr 3; decide +kernel, h3⟩

/-- C120 is false with 16 digits too: two neighbours are written with the same text, so that one of them is not read back. -/
theorem C120_sixteen_refuted : ∃ x y : Rat, Float 53 x ∧ Float 53 y ∧ x ≠ y ∧ text '.' 16 x = text '.' 16 y :=
  ⟨1000, 1000 + 1 / 2 ^ 43, ⟨1000, 0, by decide, by decide, by decide +kernel⟩,
    ⟨1000 * 2 ^ 43 + 1, -43, by decide, by decide, by decide +kernel⟩, by decide +kernel, by decide +kernel⟩

theorem digits_zeros {m : Nat} (hm : 0 < m) (n : Nat) : digits (m * 10 ^ n) = digits m ++ List.replicate n '0' := by
  induction n with
  | zero => simp
  | succ n ih =>
    have hpos : 0 < m * 10 ^ n := Nat.mul_pos hm (Nat.pow_pos (by decide))
    have e : m * 10 ^ (n + 1) = m * 10 ^ n * 10 := by rw [Nat.pow_succ, Nat.mul_assoc]
    have c : Char.ofNat (48 + 0) = '0' := rfl
    rw [e, digits, if_neg (by omega), Nat.mul_div_cancel _ (by decide), ih, Nat.mul_mod_left, c, List.append_assoc, List.replicate_succ']

theorem trim_zeros (l : List Char) (n : Nat) : trim (l ++ List.replicate n '0') = trim l := by
  unfold trim
  rw [List.reverse_append, List.reverse_replicate]
  congr 1
  induction n with
  | zero => rfl
  | succ n ih => rw [List.replicate_succ, List.cons_append, List.dropWhile_cons, if_pos (by decide), ih]

/-- The text of a number with a digit before and perhaps digits after the point. -/
theorem text_short (dp : Char) {m j : Nat} (hm : 10 ^ j ≤ m) (hm' : m < 10 ^ (j + 1)) {P : Nat} (hP : j < P) :
    text dp P ((m : Rat) * 10 ^ (-(j : Int))) = (digits m).take 1 ++ point dp (trim ((digits m).drop 1)) := by
  have hpos : 0 < m := Nat.lt_of_lt_of_le (Nat.pow_pos (by decide)) hm
  have hx : (0 : Rat) < (m : Rat) * 10 ^ (-(j : Int)) := Rat.mul_pos (by exact_mod_cast hpos) (ten_pos _)
  obtain ⟨n, rfl⟩ : ∃ n, P = j + 1 + n := ⟨P - (j + 1), by omega⟩
  have hmax : max (j + 1 + n) 1 = j + 1 + n := by omega
  have e : (m : Rat) * 10 ^ (-(j : Int)) = ((m * 10 ^ n : Nat) : Rat) * 10 ^ (-(j : Int) - n) := by
    rw [Rat.natCast_mul, ← ten_nat, Rat.mul_assoc, ← ten_add]
    congr 2
    omega
  have hd : decimal (j + 1 + n) ((m : Rat) * 10 ^ (-(j : Int))) = (m * 10 ^ n, 0) := by
    have := decimal_unique (P := j + 1 + n) (m := m * 10 ^ n) (by omega) (k := -(j : Int) - n) (x := (m : Rat) * 10 ^ (-(j : Int)))
      (by rw [show j + 1 + n - 1 = j + n by omega, Nat.pow_add]; exact Nat.mul_le_mul_right _ hm)
      (by rw [Nat.pow_add]; exact Nat.mul_lt_mul_of_pos_right hm' (Nat.pow_pos (by decide)))
      (by rw [← e]
          have e0 : dist ((m : Rat) * 10 ^ (-(j : Int))) ((m : Rat) * 10 ^ (-(j : Int))) = 0 := by unfold dist; split <;> grind
          rw [e0, Rat.zero_mul]; exact hx)
    rw [this]
    congr 1
    omega
  unfold text
  simp only [hmax, hd]
  rw [if_neg (by grind), if_neg (by grind)]
  unfold decText
  simp only
  rw [if_neg (by omega), if_pos (by omega), digits_zeros hpos]
  have hl := digits_length (j + 1) m (by omega) (by simpa using hm) hm'
  rw [show (0 : Int).toNat + 1 = 1 from rfl, List.take_append_of_le_length (by omega), List.drop_append_of_le_length (by omega), trim_zeros]

/-- C120 is false in locales where the decimal point is a comma, with every precision from 2 on: two vectors have the same text, so that no
reader can give both back. -/
theorem C120_comma_refuted (P : Nat) (h : 2 ≤ P) : Float 53 1 ∧ Float 53 5 ∧ Float 53 (3 / 2) ∧
    (printVector (put ',' P) .fresh [1, 5]).out = (printVector (put ',' P) .fresh [3 / 2]).out := by
  refine ⟨⟨1, 0, by decide, by decide, by decide +kernel⟩, ⟨5, 0, by decide, by decide, by decide +kernel⟩,
    ⟨3, -1, by decide, by decide, by decide +kernel⟩, ?_⟩
  have t1 := text_short ',' (m := 1) (j := 0) (by decide) (by decide) (P := P) (by omega)
  have t5 := text_short ',' (m := 5) (j := 0) (by decide) (by decide) (P := P) (by omega)
  have t15 := text_short ',' (m := 15) (j := 1) (by decide) (by decide) (P := P) (by omega)
  rw [show ((1 : Nat) : Rat) * 10 ^ (-((0 : Nat) : Int)) = 1 by decide +kernel, show (digits 1).take 1 ++ point ',' (trim ((digits 1).drop 1)) = ['1'] by decide +kernel] at t1
  rw [show ((5 : Nat) : Rat) * 10 ^ (-((0 : Nat) : Int)) = 5 by decide +kernel, show (digits 5).take 1 ++ point ',' (trim ((digits 5).drop 1)) = ['5'] by decide +kernel] at t5
  rw [show ((15 : Nat) : Rat) * 10 ^ (-((1 : Nat) : Int)) = 3 / 2 by decide +kernel,
    show (digits 15).take 1 ++ point ',' (trim ((digits 15).drop 1)) = ['1', ',', '5'] by decide +kernel] at t15
  rw [writtenText (writesText_double ',' P), writtenText (writesText_double ',' P)]
  simp only [List.map_cons, List.map_nil, t1, t5, t15]
  rfl

example : (readVector 9 (fun s => read ',' 53 s 0) (IStream.ofList (printVector (put ',' 6) .fresh [1, 5]).out) []).map
    (fun r => (fun r => (r.1, r.2.good)) <$> r) = some (.ok ([3 / 2], true)) := by decide +kernel
example : back 53 6 (round 53 (1 / 10)) = round 53 (1 / 10) ∧ round 53 (1 / 10) ≠ 1 / 10 := by decide +kernel
example : back 53 17 (round 53 (1 / 3)) = round 53 (1 / 3) ∧ back 53 16 (round 53 (1 / 3)) = round 53 (1 / 3) ∧
    back 53 15 (round 53 (1 / 3)) ≠ round 53 (1 / 3) := by decide +kernel
example : (printNest (put '.' 6) 2 .fresh [[1 / 2, -3], [], [1000000]]).out = "[[0.5,-3],[],[1e+06]]".toList := by decide +kernel
example : (readNest 9 (fun s => some (.ok (read '.' 53 s 0))) 2 (IStream.ofList "[[0.5, -3],[],[ 1e+06]]x".toList)).map (fun r => (fun r => (r.1, r.2.rest)) <$> r)
    = some (.ok ([[1 / 2, -3], [], [1000000]], ['x'])) := by decide +kernel

/-! Values that `printf("%g")` and `%.17g` are known to give. -/
example : text '.' 6 (1 / 2) = "0.5".toList := by decide +kernel
example : text '.' 6 1234567 = "1.23457e+06".toList := by decide +kernel
example : text '.' 6 (-100000) = "-100000".toList := by decide +kernel
example : text '.' 6 1000000 = "1e+06".toList := by decide +kernel
example : text '.' 6 (9999995 / 10) = "1e+06".toList := by decide +kernel
example : text '.' 6 (round 53 (1 / 10000)) = "0.0001".toList := by decide +kernel
example : text '.' 6 (round 53 (1 / 100000)) = "1e-05".toList := by decide +kernel
example : text '.' 17 (round 53 (1 / 10)) = "0.10000000000000001".toList := by decide +kernel
example : text '.' 3 (round 53 (1 / 10) ^ 123) = "1e-123".toList := by decide +kernel
example : (read '.' 53 (.ofList " -12.5e-1,".toList) 0).1 = -5 / 4 ∧ (read '.' 53 (.ofList " -12.5e-1,".toList) 0).2.rest = [','] := by decide +kernel
example : (read '.' 53 (.ofList ".5e".toList) 0).2.fail = true := by decide +kernel

end Helper.Double
