import Verif.Double.Range
set_option linter.unusedSectionVars false
/-!
# Property C129: which vectors of `double` are read back, with the bounds of the type
-/
namespace Helper.Double
open IStream OStream Helper.Seq

variable {F : Format} {dp : Char}

/-- A decimal point that occurs in no word that is written: neither a digit, nor a separator, a sign, nor one of `e`, `i`, `n`. -/
structure ValPoint (dp : Char) : Prop extends GoodPoint dp where
  letter_i : dp ≠ 'i'
  letter_n : dp ≠ 'n'

theorem valPoint_dot : ValPoint '.' := ⟨goodPoint_dot, by decide, by decide⟩

/-! ## Fields -/

theorem field_sign (dp : Char) (l : List Char) : (field dp l).sign = l.take (signLength l) := by
  unfold field
  simp only
  split
  · rfl
  · unfold fieldEnd
    split <;> rfl

theorem decText_head (dp : Char) (P m : Nat) (X : Int) : ∃ c r, decText dp P m X = c :: r ∧ isDigit c = true := by
  have head : ∀ (n m : Nat) (t : List Char), ∃ c r, (digits m).take (n + 1) ++ t = c :: r ∧ isDigit c = true := by
    intro n m t
    obtain ⟨c, r, h⟩ := List.exists_cons_of_ne_nil (Seq.digits_ne_nil m)
    rw [h]
    exact ⟨c, _, rfl, digits_isDigit m c (by rw [h]; simp)⟩
  unfold decText
  simp only
  split
  · rw [List.append_assoc]; exact head 0 m _
  · split
    · exact head _ m _
    · exact ⟨'0', _, rfl, by decide⟩

/-- The text of a number that is not negative begins with a digit. -/
theorem text_head (dp : Char) (P : Nat) {x : Rat} (hx : 0 ≤ x) : ∃ c r, text dp P x = c :: r ∧ isDigit c = true := by
  unfold text
  simp only
  split
  · exact ⟨'0', [], rfl, by decide⟩
  · rw [if_neg (by grind)]
    exact decText_head ..

theorem signLength_digit {c : Char} (hc : isDigit c = true) (r : List Char) : signLength (c :: r) = 0 := by
  rcases signLength_cases (c :: r) with ⟨_, r', h⟩ | ⟨_, r', h⟩ | ⟨h, _⟩
  · obtain ⟨rfl, _⟩ := List.cons.inj h; exact absurd hc (by decide)
  · obtain ⟨rfl, _⟩ := List.cons.inj h; exact absurd hc (by decide)
  · exact h

theorem signOf_cases (neg : Bool) : signOf neg = [] ∨ signOf neg = ['-'] := by cases neg <;> simp [signOf]

theorem fin_field (hdp : GoodPoint dp) (P : Nat) (neg : Bool) {x : Rat} (hx : 0 ≤ x) {l : List Char} (hl : Delim l) :
    (field dp (signOf neg ++ (text dp P x ++ l))).rest = l ∧
    (field dp (signOf neg ++ (text dp P x ++ l))).value = some (if neg then -written P x else written P x) ∧
    (field dp (signOf neg ++ (text dp P x ++ l))).sign = signOf neg := by
  have hsign : (field dp (signOf neg ++ (text dp P x ++ l))).sign = signOf neg := by
    obtain ⟨c, r, h, hc⟩ := text_head dp P hx
    rw [field_sign, h]
    cases neg with
    | true => rfl
    | false =>
      show List.take (signLength (c :: (r ++ l))) (c :: (r ++ l)) = []
      rw [signLength_digit hc, List.take_zero]
  suffices h : (field dp (signOf neg ++ (text dp P x ++ l))).rest = l ∧
      (field dp (signOf neg ++ (text dp P x ++ l))).value = some (if neg then -written P x else written P x) from ⟨h.1, h.2, hsign⟩
  cases neg with
  | false => exact text_field hdp P x hl
  | true =>
    by_cases h0 : x = 0
    · subst h0
      have hfield := field_plain hdp (sign := ['-']) (w := ['0']) (fr := []) (.inr rfl) (by simp; decide) (by simp) (by simp) hl
      have e : signOf true ++ (text dp P 0 ++ l) = ['-'] ++ (['0'] ++ (point dp [] ++ l)) := rfl
      rw [e, hfield]
      refine ⟨rfl, ?_⟩
      rw [value_plain (by simp), if_pos rfl]
      have : (digitsValue 0 (['0'] ++ []) : Rat) = 0 := rfl
      rw [this, Rat.zero_mul]
      rfl
    · have hP : 0 < max P 1 := by omega
      have hx' : 0 < x := by grind
      unfold text written
      generalize max P 1 = P at hP
      simp only
      have hn : ¬ x < 0 := Rat.not_lt.2 hx
      rw [if_neg h0, if_neg h0, if_neg hn, if_neg hn]
      obtain ⟨a, b⟩ := decimal_spec hP hx'
      have := decText_field hdp hP a b (decimal P x).2 (.inr rfl) hl
      rw [if_pos rfl] at this
      exact this

/-- Letters are no number. -/
theorem word_field {c : Char} (h1 : isDigit c = false) (h2 : c ≠ dp) (h3 : c ≠ '+' ∧ c ≠ '-') (neg : Bool) (r : List Char) :
    (field dp (signOf neg ++ c :: r)).value = none := by
  have hsl : (signOf neg ++ c :: r).drop (signLength (signOf neg ++ c :: r)) = c :: r := by
    cases neg with
    | true => rfl
    | false =>
      show (c :: r).drop (signLength (c :: r)) = c :: r
      rcases signLength_cases (c :: r) with ⟨_, r', h⟩ | ⟨_, r', h⟩ | ⟨h, _⟩
      · exact absurd (List.cons.inj h).1 h3.1
      · exact absurd (List.cons.inj h).1 h3.2
      · rw [h, List.drop_zero]
  unfold field
  simp only [hsl]
  have e1 : (c :: r).takeWhile isDigit = [] := by simp [h1]
  have e2 : (c :: r).dropWhile isDigit = c :: r := by simp [h1]
  rw [e1, e2, fraction, if_neg h2]
  simp [Field.value]

/-! ## Elements -/

theorem valText_begins (dp : Char) (P : Nat) (x : Val) : Begins (x.text dp P) := by
  have neg : ∀ t, Begins ('-' :: t) := fun t => ⟨'-', t, rfl, by decide, by decide⟩
  cases x with
  | fin b x =>
    cases b with
    | true => exact neg _
    | false => exact text_begins dp P x
  | inf b =>
    cases b with
    | true => exact neg _
    | false => exact ⟨'i', _, rfl, by decide, by decide⟩
  | nan b =>
    cases b with
    | true => exact neg _
    | false => exact ⟨'n', _, rfl, by decide, by decide⟩

theorem writesText_val (dp : Char) (P : Nat) : WritesText (Val.put dp P) (Val.text dp P) := fun _ _ hf hw => put_text hf hw _

/-- Reading an element after its text. -/
theorem val_read (P : Nat) (x x0 : Val) {s : IStream} (hs : s.Plain) {l : List Char} (hr : s.rest = x.text dp P ++ l) :
    Val.read dp F s x0 = Val.extract dp F s := by
  obtain ⟨c, r, ht, hc, _⟩ := valText_begins dp P x
  have hr' : s.rest = [] ++ c :: (r ++ l) := by rw [hr, ht]; rfl
  have hsent := sentry_split hs blank_nil hc hr'
  unfold Val.read
  rw [hsent]
  simp only [if_true]
  congr 1
  rw [adv]
  simp only [List.reverse_nil, List.nil_append]
  rw [List.nil_append] at hr'
  rw [← hr']

theorem size_neg {v : Rat} (h : 0 ≤ v) (neg : Bool) : size (if neg then -v else v) = v := by
  unfold size
  cases neg
  · simp only [Bool.false_eq_true, if_false]; split <;> grind
  · simp only [if_true]; split <;> grind

theorem readsOr_val (hdp : ValPoint dp) (P : Nat) (x0 : Val) {x : Val} (hx : Valid F x) :
    ReadsOr (fun s => some (.ok (Val.read dp F s x0))) (x.text dp P) (backV F P x) := by
  have fails : (∀ l, Delim l → (field dp (x.text dp P ++ l)).value = none) →
      Fails (fun s => some (.ok (Val.read dp F s x0))) (x.text dp P) := by
    intro h s d r hs hd hr
    right
    have h1 := h (d :: r) ⟨d, r, rfl, hd⟩
    refine ⟨(Val.read dp F s x0).1, (Val.read dp F s x0).2, rfl, ?_⟩
    rw [val_read P x x0 hs hr]
    unfold Val.extract
    simp only [hr, h1]
    simp [IStream.failed]
  cases x with
  | inf b =>
    apply fails
    intro l _
    show (field dp (signOf b ++ "inf".toList ++ l)).value = none
    rw [List.append_assoc]
    exact word_field (by decide) hdp.letter_i.symm (by decide) b _
  | nan b =>
    apply fails
    intro l _
    show (field dp (signOf b ++ "nan".toList ++ l)).value = none
    rw [List.append_assoc]
    exact word_field (by decide) hdp.letter_n.symm (by decide) b _
  | fin neg x =>
    have hx0 : 0 ≤ x := grid_nonneg hx.1
    have hw := written_nonneg P hx0
    have hfield : ∀ l, Delim l → (field dp (signOf neg ++ text dp P x ++ l)).rest = l ∧
        (field dp (signOf neg ++ text dp P x ++ l)).value = some (if neg then -written P x else written P x) ∧
        (field dp (signOf neg ++ text dp P x ++ l)).sign = signOf neg := by
      intro l hl; rw [List.append_assoc]; exact fin_field hdp.toGoodPoint P neg hx0 hl
    have hsg : decide (signOf neg = ['-']) = neg := by cases neg <;> rfl
    show ReadsOr _ (signOf neg ++ text dp P x) (if (2 : Rat) ^ F.hi ≤ near F (written P x) then none else some (Val.fin neg (near F (written P x))))
    by_cases ho : (2 : Rat) ^ F.hi ≤ near F (written P x)
    · rw [if_pos ho]
      intro s d r hs hd hr
      right
      obtain ⟨h1, h2, h3⟩ := hfield (d :: r) ⟨d, r, rfl, hd⟩
      refine ⟨(Val.read dp F s x0).1, (Val.read dp F s x0).2, rfl, ?_⟩
      rw [val_read P (.fin neg x) x0 hs hr]
      unfold Val.extract
      simp only [hr, h1, h2, size_neg hw, if_pos ho]
      simp [IStream.failed]
    · rw [if_neg ho]
      intro s d r hs hd hr
      obtain ⟨h1, h2, h3⟩ := hfield (d :: r) ⟨d, r, rfl, hd⟩
      show some (Res.ok (Val.read dp F s x0)) = _
      rw [val_read P (.fin neg x) x0 hs hr]
      unfold Val.extract
      simp only [hr, h1, h2, h3, size_neg hw, if_neg ho, hsg]
      have heof := hs.eof
      have htake : (signOf neg ++ text dp P x ++ d :: r).take ((signOf neg ++ text dp P x ++ d :: r).length - (d :: r).length) =
          signOf neg ++ text dp P x := by
        rw [List.length_append, Nat.add_sub_cancel, List.take_left']; rfl
      rw [htake]
      simp [adv]

/-! ## Vectors -/

/-- C129: what is read when a vector of any values of the type, nested to any depth, has been written: each element is replaced by what `backV` says,
and if there is one that cannot be read, an exception is thrown. -/
theorem C129_read (hdp : ValPoint dp) (P : Nat) (x0 : Val) (d : Nat) (x : Nest Val (d + 1)) (hx : ∀ y ∈ leaves (d + 1) x, Valid F y) :
    ∃ n, ∀ fuel, n ≤ fuel → ∀ rest,
      let r := readNest fuel (fun s => some (.ok (Val.read dp F s x0))) (d + 1) (IStream.ofList ((printNest (Val.put dp P) (d + 1) .fresh x).out ++ rest))
      match readable (backV F P) (d + 1) x with
      | some y => ∃ s, r = some (.ok (y, s)) ∧ s.rest = rest ∧ s.good = true
      | none => r = some (.exn .iosFailure) := by
  have hout := (writes_nest (writesText_val dp P) (d + 1) .fresh x rfl rfl).1
  obtain ⟨n, hn⟩ := nest_total (rd := fun s => some (.ok (Val.read dp F s x0))) (txt := Val.text dp P) (val := backV F P) (valText_begins dp P) d x
    (fun y hy => readsOr_val hdp P x0 (hx y hy))
  refine ⟨n, fun fuel hf rest => ?_⟩
  have h := hn fuel hf (IStream.ofList ((printNest (Val.put dp P) (d + 1) .fresh x).out ++ rest)) rest (plain_ofList _) (by rw [hout]; rfl)
  intro r
  revert h
  cases readable (backV F P) (d + 1) x with
  | none => exact fun h => h
  | some y => exact fun h => ⟨_, h, rfl, rfl⟩

/-- C129: an exception is thrown exactly if an element is infinite, NaN, or written as a number that is too large. -/
theorem C129_unreadable (hp : 0 < F.p) (hF : F.lo + F.p ≤ F.hi) (P : Nat) {x : Val} (hx : Valid F x) :
    backV F P x = none ↔ (∃ b, x = .inf b) ∨ (∃ b, x = .nan b) ∨ ∃ b y, x = .fin b y ∧ limit F ≤ written P y := by
  cases x with
  | inf b => simp [backV]
  | nan b => simp [backV]
  | fin b y =>
    have h := C129_limit hp hF (written_nonneg P (grid_nonneg hx.1))
    simp only [backV]
    split
    · rename_i h'
      simp only [true_iff]
      exact .inr (.inr ⟨b, y, rfl, h.1 h'⟩)
    · rename_i h'
      simp only [reduceCtorEq, false_iff]
      rintro (⟨_, h2⟩ | ⟨_, h2⟩ | ⟨_, _, h2, h3⟩)
      · cases h2
      · cases h2
      · cases h2; exact h' (h.2 h3)

/-- With enough digits every finite value is read back, with its sign. -/
theorem back_many (hp : 0 < F.p) {P : Nat} (h : 2 ^ F.p < 10 ^ (P - 1)) {neg : Bool} {x : Rat} (hx : Valid F (.fin neg x)) :
    backV F P (.fin neg x) = some (.fin neg x) := by
  simp only [backV]
  rw [near_written hp h hx.1, if_neg]
  intro hc
  have h1 := hx.2
  have h2 := two_pos (F.hi - F.p)
  rw [largest_eq] at h1
  grind

/-- **C129** (partial: the elements are finite, the precision is at least 17, and the decimal point is not a comma). A vector of doubles nested to any
depth is read back: zeros with their signs, subnormal numbers and the largest ones included. -/
theorem C129_finite_partial (hdp : ValPoint dp) (P : Nat) (hP : 17 ≤ P) (x0 : Val) (d : Nat) (x : Nest Val (d + 1))
    (hx : ∀ y ∈ leaves (d + 1) x, Valid binary64 y ∧ ∃ neg z, y = .fin neg z) :
    ∃ n, ∀ fuel, n ≤ fuel → ∀ rest, ∃ s, readNest fuel (fun s => some (.ok (Val.read dp binary64 s x0))) (d + 1)
        (IStream.ofList ((printNest (Val.put dp P) (d + 1) .fresh x).out ++ rest)) = some (.ok (x, s)) ∧ s.rest = rest ∧ s.good = true := by
  obtain ⟨n, hn⟩ := C129_read (F := binary64) hdp P x0 d x fun y hy => (hx y hy).1
  refine ⟨n, fun fuel hf rest => ?_⟩
  have h := hn fuel hf rest
  have hpow : 2 ^ 53 < 10 ^ (P - 1) := Nat.lt_of_lt_of_le (by decide) (Nat.pow_le_pow_right (n := 10) (by decide) (show 16 ≤ P - 1 by omega))
  have hself : readable (backV binary64 P) (d + 1) x = some x := by
    apply readable_self
    intro y hy
    obtain ⟨h1, neg, z, rfl⟩ := hx y hy
    exact back_many (F := binary64) (by decide) hpow h1
  rw [hself] at h
  exact h

/-- C129: a vector with an infinity or a NaN anywhere in it is never read back, whatever the precision. -/
theorem C129_infinite (hdp : ValPoint dp) (P : Nat) (x0 : Val) (d : Nat) (x : Nest Val (d + 1)) (hx : ∀ y ∈ leaves (d + 1) x, Valid F y)
    (hi : ∃ y ∈ leaves (d + 1) x, (∃ b, y = .inf b) ∨ ∃ b, y = .nan b) :
    ∃ n, ∀ fuel, n ≤ fuel → ∀ rest, readNest fuel (fun s => some (.ok (Val.read dp F s x0))) (d + 1)
        (IStream.ofList ((printNest (Val.put dp P) (d + 1) .fresh x).out ++ rest)) = some (.exn .iosFailure) := by
  obtain ⟨n, hn⟩ := C129_read (F := F) hdp P x0 d x hx
  refine ⟨n, fun fuel hf rest => ?_⟩
  have h := hn fuel hf rest
  have : readable (backV F P) (d + 1) x = none := by
    rw [readable_none]
    obtain ⟨y, hy, ⟨b, rfl⟩ | ⟨b, rfl⟩⟩ := hi
    · exact ⟨_, hy, rfl⟩
    · exact ⟨_, hy, rfl⟩
  rw [this] at h
  exact h

/-- A larger number is not written as a smaller one. -/
theorem written_mono (P : Nat) {x y : Rat} (h : x ≤ y) : written P x ≤ written P y := by
  apply Classical.byContradiction
  intro hc
  have hc := Rat.not_le.1 hc
  by_cases e : x = y
  · subst e; exact absurd hc (by grind)
  have h1 := (C120_nearest P x).2 _ (C120_nearest P y).1
  have h2 := (C120_nearest P y).2 _ (C120_nearest P x).1
  unfold dist at h1 h2
  grind

theorem valid_largest (hF : F.lo + F.p ≤ F.hi) (neg : Bool) : Valid F (.fin neg (largest F)) := ⟨grid_largest hF, Rat.le_refl⟩

/-- C129: whether there are finite values that are written as too large a number depends on the largest one. -/
theorem C129_largest (hp : 0 < F.p) (hF : F.lo + F.p ≤ F.hi) (P : Nat) :
    (∃ neg x, Valid F (.fin neg x) ∧ backV F P (.fin neg x) = none) ↔ limit F ≤ written P (largest F) := by
  constructor
  · rintro ⟨neg, x, hx, h⟩
    rcases (C129_unreadable hp hF P hx).1 h with ⟨_, h⟩ | ⟨_, h⟩ | ⟨_, _, h, h'⟩
    · cases h
    · cases h
    · cases h
      exact Rat.le_trans h' (written_mono P hx.2)
  · intro h
    exact ⟨false, _, valid_largest hF false, (C129_unreadable hp hF P (valid_largest hF false)).2 (.inr (.inr ⟨_, _, rfl, h⟩))⟩

/-- C129: the precisions with which every finite `double` is written as a number that can be read: 6 (the default) to 9, 12 to 14, and from 17 on. With
the others the largest number is rounded up beyond the range. -/
theorem C129_precisions (P : Nat) :
    (∃ neg x, Valid binary64 (.fin neg x) ∧ backV binary64 P (.fin neg x) = none) ↔ P ∈ [0, 1, 2, 3, 4, 5, 10, 11, 15, 16] := by
  by_cases hP : 17 ≤ P
  · have hpow : 2 ^ 53 < 10 ^ (P - 1) := Nat.lt_of_lt_of_le (by decide) (Nat.pow_le_pow_right (n := 10) (by decide) (show 16 ≤ P - 1 by omega))
    constructor
    · rintro ⟨neg, x, hx, h⟩
      rw [back_many (F := binary64) (by decide) hpow hx] at h
      cases h
    · intro h
      simp only [List.mem_cons, List.not_mem_nil, or_false] at h
      omega
  · rw [C129_largest (F := binary64) (by decide) (by decide) P]
    have : ∀ P : Fin 17, limit binary64 ≤ written P.val (largest binary64) ↔ P.val ∈ [0, 1, 2, 3, 4, 5, 10, 11, 15, 16] := by decide +kernel
    exact this ⟨P, by omega⟩

/-- **C129, refuted** for infinities: `[inf]` is written and cannot be read. -/
theorem C129_infinite_refuted (P : Nat) : (printVector (Val.put '.' P) .fresh [.inf false]).out = "[inf]".toList ∧
    readNest 3 (fun s => some (.ok (Val.read '.' binary64 s (.fin false 0)))) 1 (IStream.ofList "[inf]".toList) = some (.exn .iosFailure) := by
  refine ⟨?_, by decide +kernel⟩
  rfl

/-- **C129, refuted** for the largest number with 15 digits: what is written cannot be read. -/
theorem C129_refuted : Valid binary64 (.fin false (largest binary64)) ∧
    (printVector (Val.put '.' 15) .fresh [.fin false (largest binary64)]).out = "[1.79769313486232e+308]".toList ∧
    readNest 3 (fun s => some (.ok (Val.read '.' binary64 s (.fin false 0)))) 1 (IStream.ofList "[1.79769313486232e+308]".toList) =
      some (.exn .iosFailure) :=
  ⟨valid_largest (by decide) false, by decide +kernel, by decide +kernel⟩

/-- The smallest number and minus zero are read back with 17 digits. -/
example : Valid binary64 (.fin true (2 ^ (-1074 : Int))) ∧ Valid binary64 (.fin true 0) ∧
    Val.text '.' 17 (.fin true (2 ^ (-1074 : Int))) = "-4.9406564584124654e-324".toList ∧
    ((readNest 4 (fun s => some (.ok (Val.read '.' binary64 s (.fin false 0)))) 1 (IStream.ofList "[-4.9406564584124654e-324,-0]".toList)).map
      fun r => match r with | .ok (y, _) => (y : List Val) | _ => []) = some [.fin true (2 ^ (-1074 : Int)), .fin true 0] :=
  ⟨⟨⟨1, -1074, by decide, by decide, by decide +kernel⟩, by decide +kernel⟩,
    ⟨⟨0, 0, by decide, by decide, by decide +kernel⟩, by decide +kernel⟩, by decide +kernel, by decide +kernel⟩

end Helper.Double
