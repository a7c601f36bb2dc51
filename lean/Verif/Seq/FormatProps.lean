import Verif.Seq.Format
set_option linter.unusedSectionVars false
/-!
# Property C133: lists of integers are read back whatever the format of the streams
-/
namespace Helper.Seq.Format
open IStream OStream

/-! Specification -/

/-- `i` is a value of the type. -/
def IntType.Has (t : IntType) (i : Int) : Prop := t.lo ≤ i ∧ i ≤ t.hi

instance (t : IntType) (i : Int) : Decidable (t.Has i) := inferInstanceAs (Decidable (_ ∧ _))

/-- The base in which the reader takes the digits: its own, or, if it has none, the one shown by the writer. -/
def seen (f : Flags) : Base → Nat
  | .oct => 8
  | .dec => 10
  | .hex => 16
  | .unset => if f.showbase then f.base.radix else 10

/-- The reader does not get past the `x` of `0x`. -/
def Stuck (f : Flags) (b : Base) : Prop := f.base = .hex ∧ f.showbase = true ∧ (b = .dec ∨ b = .oct)

instance (f : Flags) (b : Base) : Decidable (Stuck f b) := inferInstanceAs (Decidable (_ ∧ _ ∧ (_ ∨ _)))

/-- The number whose digits are written. -/
def magnitude (t : IntType) (f : Flags) (i : Int) : Nat :=
  if f.base.radix = 10 then i.natAbs else (if i < 0 then i + 2 ^ t.w else i).toNat

/-- What is read from the text of `i`. -/
def numberRead (t : IntType) (f : Flags) (b : Base) (i : Int) : Option Int :=
  if i = 0 then some 0
  else if Stuck f b then none
  else if ∀ k ∈ digs f.base.radix (magnitude t f i), k < seen f b then
    represent t (decide (f.base.radix = 10 ∧ i < 0)) (value (seen f b) (digs f.base.radix (magnitude t f i)))
  else none

/-- The text of `i` is read as `i`: zero; or a number that is not written modulo `2 ^ w`, whose digits are read in the base in which they are
written, or which has but one digit, common to both bases. -/
def Survives (f : Flags) (b : Base) (i : Int) : Prop :=
  i = 0 ∨ (¬ (i < 0 ∧ f.base.radix ≠ 10) ∧ ¬ Stuck f b ∧
    (f.base.radix = seen f b ∨ (i.natAbs < f.base.radix ∧ i.natAbs < seen f b)))

/-! ## One number -/

theorem hi_lt (t : IntType) (hw : 1 ≤ t.w) : t.hi < 2 ^ t.w ∧ - 2 ^ t.w < t.lo ∧ 0 ≤ t.hi ∧ t.lo ≤ 0 := by
  have h1 : (2 : Int) ^ t.w = 2 * 2 ^ (t.w - 1) := by
    rw [← Int.pow_succ']; congr 1; omega
  have h2 : (0 : Int) < 2 ^ (t.w - 1) := Int.pow_pos (by decide)
  simp only [IntType.hi, IntType.lo]
  generalize (2 : Int) ^ (t.w - 1) = p at *
  rw [h1]
  split <;> omega

theorem mod_magnitude {t : IntType} {f : Flags} {i : Int} (hw : 1 ≤ t.w) (hi : t.Has i) (hb : f.base.radix ≠ 10) :
    (i % 2 ^ t.w).toNat = magnitude t f i := by
  obtain ⟨h1, h2, h3, h4⟩ := hi_lt t hw
  obtain ⟨h5, h6⟩ := hi
  simp only [magnitude, hb, if_false]
  generalize (2 : Int) ^ t.w = p at *
  split
  · rw [← Int.add_emod_right, Int.emod_eq_of_lt (by omega) (by omega)]
  · rw [Int.emod_eq_of_lt (by omega) (by omega)]

theorem magnitude_pos {t : IntType} {f : Flags} {i : Int} (hw : 1 ≤ t.w) (hi : t.Has i) (h0 : i ≠ 0) : 0 < magnitude t f i := by
  obtain ⟨h1, h2, h3, h4⟩ := hi_lt t hw
  obtain ⟨h5, h6⟩ := hi
  simp only [magnitude]
  generalize (2 : Int) ^ t.w = p at *
  split
  · omega
  · split <;> omega

/-- The text after the sign. -/
theorem parse_body (t : IntType) (b : Base) {sg body : List Char} (hs : sg = [] ∨ sg = ['+'] ∨ sg = ['-']) (hb : signLength body = 0) :
    parse t b (sg ++ body) = if body.drop (scanBase b body).1 ≠ [] ∧ ∀ c ∈ body.drop (scanBase b body).1, isMark (scanBase b body).2 c = true then
      represent t (decide (sg = ['-'])) (valueIn (scanBase b body).2 0 (body.drop (scanBase b body).1)) else none := by
  rcases hs with rfl | rfl | rfl
  · simp only [List.nil_append, parse, hb, List.drop_zero, List.take_zero]
  · rfl
  · rfl

theorem marks_head (f : Flags) {n : Nat} (hn : 0 < n) : ∃ k l, marks f n = mark f.uppercase k :: l ∧ 0 < k ∧ k < 16 := by
  obtain ⟨k, l, h1, h2⟩ := digs_head (radix_le f.base).1 n hn
  refine ⟨k, l.map (mark f.uppercase), by simp [marks, h1], h2, digs_16 f n k (by rw [h1]; simp)⟩

theorem marks_all (f : Flags) (n r : Nat) : (∀ c ∈ marks f n, isMark r c = true) ↔ ∀ k ∈ digs f.base.radix n, k < r := by
  constructor
  · intro h k hk
    have := h _ (List.mem_map_of_mem hk)
    rw [isMark_mark _ (digs_16 f n k hk)] at this
    exact of_decide_eq_true this
  · intro h c hc
    obtain ⟨k, hk, rfl⟩ := List.mem_map.1 hc
    rw [isMark_mark _ (digs_16 f n k hk)]
    exact decide_eq_true (h k hk)

theorem marks_value (f : Flags) (n r : Nat) : valueIn r 0 (marks f n) = value r (digs f.base.radix n) :=
  valueIn_marks r f.uppercase _ 0 (digs_16 f n)

/-- The base of the reader, or `r` if it has none. -/
def bare (r : Nat) : Base → Nat
  | .oct => 8
  | .dec => 10
  | .hex => 16
  | .unset => r

/-- Digits without a prefix. -/
theorem parse_marks (t : IntType) (f : Flags) (b : Base) {sg : List Char} (hs : sg = [] ∨ sg = ['+'] ∨ sg = ['-']) {n : Nat} (hn : 0 < n)
    (r : Nat) (hr : r = bare 10 b) :
    parse t b (sg ++ marks f n) = if ∀ k ∈ digs f.base.radix n, k < r then represent t (decide (sg = ['-'])) (value r (digs f.base.radix n)) else none := by
  obtain ⟨k, l, h, hk, hk16⟩ := marks_head f hn
  obtain ⟨h1, h2, h3, h4, h5⟩ := mark_plain f.uppercase hk16
  have h6 := h5 hk
  have hsl : signLength (marks f n) = 0 := by rw [h]; simp [signLength, h1, h2]
  have hsc : scanBase b (marks f n) = (0, r) := by
    rw [h, hr]; cases b <;> simp [scanBase, bare, hexPrefix, zeroPrefix, h6]
  rw [parse_body t b hs hsl, hsc]
  simp only [List.drop_zero, marks_ne, ne_eq, not_false_eq_true, true_and, marks_all, marks_value]

/-- Digits after a zero. -/
theorem parse_zero (t : IntType) (f : Flags) (b : Base) {n : Nat} (hn : 0 < n)
    (r : Nat) (hr : r = bare 8 b) :
    parse t b ('0' :: marks f n) = if ∀ k ∈ digs f.base.radix n, k < r then represent t false (value r (digs f.base.radix n)) else none := by
  obtain ⟨k, l, h, hk, hk16⟩ := marks_head f hn
  obtain ⟨h1, h2, h3, h4, h5⟩ := mark_plain f.uppercase hk16
  have hsc : scanBase b ('0' :: marks f n) = (0, r) := by
    rw [h, hr]; cases b <;> simp [scanBase, bare, hexPrefix, zeroPrefix, h3, h4]
  have hp := parse_body t b (sg := []) (.inl rfl) (body := '0' :: marks f n) rfl
  rw [List.nil_append] at hp
  have h0 : isMark r '0' = true := by
    have : 0 < r := by rw [hr]; cases b <;> decide
    exact decide_eq_true (p := 0 < r) this
  have hv : valueIn r 0 ('0' :: marks f n) = value r (digs f.base.radix n) := by
    rw [← marks_value]
    show valueIn r (0 * r + 0) (marks f n) = _
    simp
  rw [hp, hsc]
  simp only [List.drop_zero, ne_eq, List.cons_ne_nil, not_false_eq_true, true_and, List.mem_cons, forall_eq_or_imp, h0, marks_all, hv]
  simp

/-- Digits after `0x`. -/
theorem parse_x (t : IntType) (f : Flags) (b : Base) {n : Nat} (x : Char) (hx : x = 'x' ∨ x = 'X') :
    parse t b ('0' :: x :: marks f n) = if b = .dec ∨ b = .oct then none
      else if ∀ k ∈ digs f.base.radix n, k < 16 then represent t false (value 16 (digs f.base.radix n)) else none := by
  have hp := parse_body t b (sg := []) (.inl rfl) (body := '0' :: x :: marks f n) rfl
  rw [List.nil_append] at hp
  have hxx : (x == 'x' || x == 'X') = true := by rcases hx with rfl | rfl <;> rfl
  have hxm : ∀ r, isMark r x = false := by rcases hx with rfl | rfl <;> intro r <;> rfl
  rw [hp]
  have hd : ([] : List Char) ≠ ['-'] := by simp
  cases b with
  | oct => simp [scanBase, hxm]
  | dec => simp [scanBase, hxm]
  | hex => simp only [scanBase, hexPrefix, hxx, if_true, List.drop_succ_cons, List.drop_zero, ne_eq, marks_ne, not_false_eq_true, true_and, marks_all, marks_value]; simp
  | unset => simp only [scanBase, hexPrefix, hxx, if_true, List.drop_succ_cons, List.drop_zero, ne_eq, marks_ne, not_false_eq_true, true_and, marks_all, marks_value]; simp

theorem represent_zero {t : IntType} (hw : 1 ≤ t.w) : represent t false 0 = some 0 := by
  obtain ⟨h1, h2, h3, h4⟩ := hi_lt t hw
  simp [represent, h3, h4]

/-- What is read from the text of a number. -/
theorem parse_text {t : IntType} (hw : 1 ≤ t.w) (f : Flags) (b : Base) {i : Int} (hi : t.Has i) :
    parse t b (intTextF t f i) = numberRead t f b i := by
  by_cases h0 : i = 0
  · subst h0
    have hm : marks f 0 = ['0'] := by
      rw [marks, digs_small (by have := (radix_le f.base).1; omega)]; rfl
    have hz : parse t b ['0'] = some 0 ∧ parse t b ['+', '0'] = some 0 := by
      have := represent_zero hw
      cases b <;> exact ⟨this, this⟩
    simp only [numberRead, if_true]
    cases hb : f.base <;> simp only [intTextF, hb] <;> simp [hm, hz.1]
    · split
      · exact hz.2
      · exact hz.1
    · split
      · exact hz.2
      · exact hz.1
  · have hpos := magnitude_pos (f := f) hw hi h0
    have hne : (i != 0) = true := by simpa using h0
    simp only [numberRead, if_neg h0]
    cases hb : f.base with
    | oct =>
      have hr : f.base.radix ≠ 10 := by rw [hb]; decide
      have hm := mod_magnitude (f := f) hw hi hr
      have h8 : Base.oct.radix ≠ 10 := by decide
      have hst : ¬ Stuck f b := fun h => by rw [h.1] at hb; cases hb
      simp only [intTextF, hb, hm, hne, Bool.and_true, if_neg hst, h8, false_and, decide_false]
      cases hsb : f.showbase with
      | false =>
        simp only [Bool.false_eq_true, if_false]
        rw [parse_marks t f b (.inl rfl) hpos (seen f b) (by cases b <;> simp [seen, bare, hsb]), hb]
        simp
      | true =>
        simp only [if_true]
        show parse t b ('0' :: marks f (magnitude t f i)) = _
        rw [parse_zero t f b hpos (seen f b) (by cases b <;> simp [seen, bare, hsb, hb, Base.radix]), hb]
    | hex =>
      have hr : f.base.radix ≠ 10 := by rw [hb]; decide
      have hm := mod_magnitude (f := f) hw hi hr
      have h8 : Base.hex.radix ≠ 10 := by decide
      simp only [intTextF, hb, hm, hne, Bool.and_true, h8, false_and, decide_false]
      cases hsb : f.showbase with
      | false =>
        have hst : ¬ Stuck f b := fun h => by rw [h.2.1] at hsb; cases hsb
        simp only [Bool.false_eq_true, if_false, if_neg hst]
        rw [parse_marks t f b (.inl rfl) hpos (seen f b) (by cases b <;> simp [seen, bare, hsb]), hb]
        simp
      | true =>
        simp only [if_true]
        show parse t b ('0' :: _ :: marks f (magnitude t f i)) = _
        rw [parse_x t f b _ (by cases f.uppercase <;> simp)]
        by_cases hd : b = .dec ∨ b = .oct
        · rw [if_pos hd, if_pos (show Stuck f b from ⟨hb, hsb, hd⟩)]
        · rw [if_neg hd, if_neg (show ¬ Stuck f b from fun h => hd h.2.2)]
          have : seen f b = 16 := by
            cases b with
            | oct => simp at hd
            | dec => simp at hd
            | hex => rfl
            | unset => simp [seen, hsb, hb, Base.radix]
          rw [this, hb]
    | dec =>
      have hst : ¬ Stuck f b := fun h => by rw [h.1] at hb; cases hb
      have hm : magnitude t f i = i.natAbs := by simp [magnitude, hb, Base.radix]
      have h10 : Base.dec.radix = 10 := rfl
      simp only [intTextF, hb, if_neg hst, h10, true_and]
      rw [hm] at hpos ⊢
      have hse : seen f b = bare 10 b := by cases b <;> simp [seen, bare, hb, Base.radix]
      have hs3 : (if i < 0 then ['-'] else if (f.showpos && t.signed) = true then ['+'] else []) = [] ∨
          (if i < 0 then ['-'] else if (f.showpos && t.signed) = true then ['+'] else []) = ['+'] ∨
          (if i < 0 then ['-'] else if (f.showpos && t.signed) = true then ['+'] else []) = ['-'] := by
        split
        · simp
        · split <;> simp
      rw [parse_marks t f b hs3 hpos (seen f b) hse, hb]
      have hsg : ((if i < 0 then ['-'] else if (f.showpos && t.signed) = true then ['+'] else []) = ['-']) ↔ i < 0 := by
        split
        · simp_all
        · split <;> simp_all
      simp only [hsg]
      rfl
    | unset =>
      have hst : ¬ Stuck f b := fun h => by rw [h.1] at hb; cases hb
      have hm : magnitude t f i = i.natAbs := by simp [magnitude, hb, Base.radix]
      have h10 : Base.unset.radix = 10 := rfl
      simp only [intTextF, hb, if_neg hst, h10, true_and]
      rw [hm] at hpos ⊢
      have hse : seen f b = bare 10 b := by cases b <;> simp [seen, bare, hb, Base.radix]
      have hs3 : (if i < 0 then ['-'] else if (f.showpos && t.signed) = true then ['+'] else []) = [] ∨
          (if i < 0 then ['-'] else if (f.showpos && t.signed) = true then ['+'] else []) = ['+'] ∨
          (if i < 0 then ['-'] else if (f.showpos && t.signed) = true then ['+'] else []) = ['-'] := by
        split
        · simp
        · split <;> simp
      rw [parse_marks t f b hs3 hpos (seen f b) hse, hb]
      have hsg : ((if i < 0 then ['-'] else if (f.showpos && t.signed) = true then ['+'] else []) = ['-']) ↔ i < 0 := by
        split
        · simp_all
        · split <;> simp_all
      simp only [hsg]
      rfl

/-- Which numbers are read back. -/
theorem numberRead_self {t : IntType} (hw : 1 ≤ t.w) (f : Flags) (b : Base) {i : Int} (hi : t.Has i) :
    numberRead t f b i = some i ↔ Survives f b i := by
  obtain ⟨h1, h2, h3, h4⟩ := hi_lt t hw
  obtain ⟨h5, h6⟩ := hi
  by_cases h0 : i = 0
  · subst h0; simp [numberRead, Survives]
  rw [numberRead, if_neg h0]
  simp only [Survives, h0, false_or]
  by_cases hst : Stuck f b
  · simp [hst]
  rw [if_neg hst]
  simp only [hst, not_false_eq_true, true_and]
  have hsame := same_value (b := f.base.radix) (c := seen f b) (radix_le f.base).1 (magnitude t f i)
  by_cases hneg : i < 0 ∧ f.base.radix ≠ 10
  · refine ⟨fun h => ?_, fun h => absurd hneg h.1⟩
    exfalso
    split at h
    · simp only [represent, hneg.2, false_and, decide_false, Bool.false_eq_true, if_false] at h
      split at h
      · split at h
        · injection h with h; omega
        · cases h
      · split at h
        · injection h with h; omega
        · cases h
    · cases h
  · have hmag : magnitude t f i = i.natAbs := by
      simp only [magnitude]
      split
      · rfl
      · rename_i hr
        have : ¬ i < 0 := fun h => hneg ⟨h, hr⟩
        rw [if_neg this]; omega
    rw [hmag] at hsame ⊢
    simp only [hneg, not_false_eq_true, true_and]
    rw [← hsame]
    have hdec : (f.base.radix = 10 ∧ i < 0) ↔ i < 0 := ⟨fun h => h.2, fun h => ⟨Classical.byContradiction fun hr => hneg ⟨h, hr⟩, h⟩⟩
    simp only [hdec]
    by_cases hall : ∀ k ∈ digs f.base.radix i.natAbs, k < seen f b
    · rw [if_pos hall, and_iff_right hall]
      generalize value (seen f b) (digs f.base.radix i.natAbs) = m
      simp only [represent]
      by_cases hs : t.signed = true
      · simp only [hs, if_true]
        by_cases hn : i < 0
        · simp only [hn, decide_true, if_true]
          constructor
          · intro h
            split at h
            · injection h with h; omega
            · cases h
          · intro h
            rw [if_pos (by omega)]
            congr 1; omega
        · simp only [hn, decide_false, Bool.false_eq_true, if_false]
          constructor
          · intro h
            split at h
            · injection h with h; omega
            · cases h
          · intro h
            rw [if_pos (by omega)]
            congr 1; omega
      · have hlo : t.lo = 0 := by simp [IntType.lo, hs]
        have hn : ¬ i < 0 := by omega
        simp only [hs, hn, decide_false, Bool.false_eq_true, if_false]
        constructor
        · intro h
          split at h
          · injection h with h; omega
          · cases h
        · intro h
          rw [if_pos (by omega)]
          congr 1; omega
    · rw [if_neg hall]
      constructor
      · intro h; cases h
      · intro h; exact absurd h.1 hall

/-! ## C133 -/

/-- As `C133_outcome`, for the rest of any stream. -/
theorem outcome_plain (t : IntType) (hw : 1 ≤ t.w) (f : Flags) (b : Base) (d : Nat) (x : Nest Int (d + 1)) (hx : ∀ i ∈ leaves (d + 1) x, t.Has i) :
    ∃ n, ∀ fuel, n ≤ fuel → ∀ (s : IStream) (rest : List Char), s.Plain → s.rest = nestText (intTextF t f) (d + 1) x ++ rest →
      (∀ z, nestVal (numberRead t f b) (d + 1) x = some z → readNest fuel (readLeafF t b) (d + 1) s =
        some (.ok (z, s.adv (nestText (intTextF t f) (d + 1) x) rest))) ∧
      (nestVal (numberRead t f b) (d + 1) x = none → readNest fuel (readLeafF t b) (d + 1) s = some (.exn .iosFailure)) :=
  nest_outcome (rd := readLeafF t b) (txt := intTextF t f) (val := numberRead t f b) (text_begins t f) d x
    (fun i hi => by
      have hp := parse_text hw f b (hx i hi)
      exact ⟨fun z hz => leaf_good (text_clean t f i) (text_ne t f i) (hp.trans hz),
        fun hz => leaf_bad (text_clean t f i) (text_ne t f i) (hp.trans hz)⟩)

/-- C133: what is read from a nested vector of integers written with the flags `f`, by a stream with the base `b`: the vector of what is read from the
numbers, if all are read; otherwise the reader throws. -/
theorem C133_outcome (t : IntType) (hw : 1 ≤ t.w) (f : Flags) (b : Base) (d : Nat) (x : Nest Int (d + 1)) (hx : ∀ i ∈ leaves (d + 1) x, t.Has i) :
    ∃ n, ∀ fuel, n ≤ fuel → ∀ rest,
      (∀ z, nestVal (numberRead t f b) (d + 1) x = some z → ∃ s, readNest fuel (readLeafF t b) (d + 1)
        (IStream.ofList ((printNest (putIntF t f) (d + 1) .fresh x).out ++ rest)) = some (.ok (z, s)) ∧ s.rest = rest ∧ s.good = true) ∧
      (nestVal (numberRead t f b) (d + 1) x = none → readNest fuel (readLeafF t b) (d + 1)
        (IStream.ofList ((printNest (putIntF t f) (d + 1) .fresh x).out ++ rest)) = some (.exn .iosFailure)) := by
  have hout := (writes_nest (writes_text t f) (d + 1) .fresh x rfl rfl).1
  obtain ⟨n, hn⟩ := outcome_plain t hw f b d x hx
  refine ⟨n, fun fuel hf rest => ?_⟩
  obtain ⟨h1, h2⟩ := hn fuel hf (IStream.ofList ((printNest (putIntF t f) (d + 1) .fresh x).out ++ rest)) rest (plain_ofList _)
    (by rw [hout]; rfl)
  exact ⟨fun z hz => ⟨_, h1 z hz, rfl, rfl⟩, h2⟩

/-- C133: a nested vector of integers is read back exactly if each of its numbers survives the change of base. -/
theorem C133_iff_partial (t : IntType) (hw : 1 ≤ t.w) (f : Flags) (b : Base) (d : Nat) (x : Nest Int (d + 1)) (hx : ∀ i ∈ leaves (d + 1) x, t.Has i) :
    ∃ n, ∀ fuel, n ≤ fuel → ∀ rest, ((∃ s, readNest fuel (readLeafF t b) (d + 1)
        (IStream.ofList ((printNest (putIntF t f) (d + 1) .fresh x).out ++ rest)) = some (.ok (x, s)) ∧ s.rest = rest ∧ s.good = true) ↔
      ∀ i ∈ leaves (d + 1) x, Survives f b i) := by
  obtain ⟨n, hn⟩ := C133_outcome t hw f b d x hx
  refine ⟨n, fun fuel hf rest => ?_⟩
  obtain ⟨h1, h2⟩ := hn fuel hf rest
  have hself : nestVal (numberRead t f b) (d + 1) x = some x ↔ ∀ i ∈ leaves (d + 1) x, Survives f b i := by
    rw [nestVal_self]
    constructor
    · intro h i hi; exact (numberRead_self hw f b (hx i hi)).1 (h i hi)
    · intro h i hi; exact (numberRead_self hw f b (hx i hi)).2 (h i hi)
  rw [← hself]
  constructor
  · rintro ⟨s, hs, _⟩
    cases hv : nestVal (numberRead t f b) (d + 1) x with
    | none => rw [h2 hv] at hs; cases hs
    | some z =>
      obtain ⟨s', hs', _⟩ := h1 z hv
      rw [hs'] at hs
      cases hs
      rfl
  · intro h
    exact h1 x h

theorem survives_same {f : Flags} {i : Int} (hi : f.base.radix = 10 ∨ 0 ≤ i) : Survives f f.base i := by
  refine .inr ⟨fun h => ?_, ?_, .inl ?_⟩
  · rcases hi with h' | h'
    · exact h.2 h'
    · omega
  · rintro ⟨h1, _, h2⟩
    rw [h1] at h2
    rcases h2 with h2 | h2 <;> cases h2
  · cases h : f.base <;> simp [seen, Base.radix, h]

/-- C133: with the same base for reading and writing, whatever the other flags, a vector is read back if it is decimal or has no negative numbers. -/
theorem C133_same_partial (t : IntType) (hw : 1 ≤ t.w) (f : Flags) (d : Nat) (x : Nest Int (d + 1))
    (hx : ∀ i ∈ leaves (d + 1) x, t.Has i ∧ (f.base.radix = 10 ∨ 0 ≤ i)) :
    ∃ n, ∀ fuel, n ≤ fuel → ∀ rest, ∃ s, readNest fuel (readLeafF t f.base) (d + 1)
        (IStream.ofList ((printNest (putIntF t f) (d + 1) .fresh x).out ++ rest)) = some (.ok (x, s)) ∧ s.rest = rest ∧ s.good = true := by
  obtain ⟨n, hn⟩ := C133_iff_partial t hw f f.base d x fun i hi => (hx i hi).1
  exact ⟨n, fun fuel hf rest => (hn fuel hf rest).2 fun i hi => survives_same (hx i hi).2⟩

/-- C133: with the base shown by the writer and none set for the reader, numbers that are not negative are read back. -/
theorem C133_shown_partial (t : IntType) (hw : 1 ≤ t.w) (f : Flags) (hs : f.showbase = true) (d : Nat) (x : Nest Int (d + 1))
    (hx : ∀ i ∈ leaves (d + 1) x, t.Has i ∧ (f.base.radix = 10 ∨ 0 ≤ i)) :
    ∃ n, ∀ fuel, n ≤ fuel → ∀ rest, ∃ s, readNest fuel (readLeafF t .unset) (d + 1)
        (IStream.ofList ((printNest (putIntF t f) (d + 1) .fresh x).out ++ rest)) = some (.ok (x, s)) ∧ s.rest = rest ∧ s.good = true := by
  obtain ⟨n, hn⟩ := C133_iff_partial t hw f .unset d x fun i hi => (hx i hi).1
  refine ⟨n, fun fuel hf rest => (hn fuel hf rest).2 fun i hi => .inr ⟨fun h => ?_, ?_, .inl ?_⟩⟩
  · rcases (hx i hi).2 with h' | h'
    · exact h.2 h'
    · omega
  · rintro ⟨h1, _, h2⟩
    rcases h2 with h2 | h2 <;> cases h2
  · simp [seen, hs]

/-- C133 fails: with the same octal or hexadecimal base for reading and writing, a vector with a negative number is written, but reading it throws. -/
theorem C133_negative_refuted (t : IntType) (hw : 1 ≤ t.w) (f : Flags) (hf : f.base.radix ≠ 10) (d : Nat) (x : Nest Int (d + 1))
    (hx : ∀ i ∈ leaves (d + 1) x, t.Has i) {i : Int} (hi : i ∈ leaves (d + 1) x) (hneg : i < 0) :
    ∃ n, ∀ fuel, n ≤ fuel → ∀ rest, readNest fuel (readLeafF t f.base) (d + 1)
        (IStream.ofList ((printNest (putIntF t f) (d + 1) .fresh x).out ++ rest)) = some (.exn .iosFailure) := by
  obtain ⟨n, hn⟩ := C133_outcome t hw f f.base d x hx
  refine ⟨n, fun fuel hfu rest => (hn fuel hfu rest).2 ?_⟩
  have hst : ¬ Stuck f f.base := by
    rintro ⟨h1, _, h2⟩
    rw [h1] at h2
    rcases h2 with h2 | h2 <;> cases h2
  have hseen : seen f f.base = f.base.radix := by cases h : f.base <;> simp [seen, Base.radix, h] <;> simp [h, Base.radix] at hf
  have hnone : numberRead t f f.base i = none := by
    obtain ⟨h5, h6⟩ := hx i hi
    have h1 : (2 : Int) ^ t.w = 2 * 2 ^ (t.w - 1) := by
      rw [← Int.pow_succ']; congr 1; omega
    have hsg : t.signed = true := by
      cases h : t.signed with
      | true => rfl
      | false => simp [IntType.lo, h] at h5; omega
    have hlo : t.lo = - 2 ^ (t.w - 1) := by simp [IntType.lo, hsg]
    have hhi : t.hi = 2 ^ (t.w - 1) - 1 := by simp [IntType.hi, hsg]
    have h0 : i ≠ 0 := by omega
    simp only [numberRead, if_neg h0, if_neg hst, hseen, value_self (radix_le f.base).1, hf, false_and, decide_false]
    rw [if_pos (digs_lt (radix_le f.base).1 _)]
    simp only [represent, hsg, if_true, Bool.false_eq_true, if_false, magnitude, hf, hneg]
    rw [if_neg]
    rw [h1]
    rw [hlo] at h5
    rw [hhi]
    generalize (2 : Int) ^ (t.w - 1) = p at *
    omega
  have key : ∀ (d : Nat) (x : Nest Int d), i ∈ leaves d x → nestVal (numberRead t f f.base) d x = none := by
    intro d
    induction d with
    | zero =>
      intro x h
      simp only [leaves, List.mem_singleton] at h
      subst h; exact hnone
    | succ d ih =>
      intro x h
      obtain ⟨l, hl, hil⟩ := List.mem_flatten.1 h
      obtain ⟨z, hz, rfl⟩ := List.mem_map.1 hl
      have hzn := ih z hil
      show listVal _ x = none
      cases hv : listVal (nestVal (numberRead t f f.base) d) x with
      | none => rfl
      | some ys => exact absurd hzn ((listVal_some hv).1 z hz)
  exact key (d + 1) x hi

/-- A signed type of 32 bits. -/
def int32 : IntType := ⟨32, true⟩

/-- C133 fails: a list written in hexadecimal and read in decimal gives another list, without an error. -/
theorem C133_misread_refuted : ∃ (f : Flags) (b : Base) (x y : Nest Int 1) (s : IStream), (∀ i ∈ leaves 1 x, int32.Has i) ∧ x ≠ y ∧
    readNest 10 (readLeafF int32 b) 1 (IStream.ofList (printNest (putIntF int32 f) 1 .fresh x).out) = some (.ok (y, s)) ∧ s.good = true :=
  ⟨⟨.hex, false, false, false⟩, .dec, [16, 1], [10, 1],
    (IStream.ofList ['[', '1', '0', ',', '1', ']']).adv ['[', '1', '0', ',', '1', ']'] [], by decide +kernel, by decide +kernel, by decide +kernel, rfl⟩

/-- C133 fails: not every list of numbers is read back with the flags with which it was written. -/
theorem C133_refuted : ¬ ∀ (t : IntType), 1 ≤ t.w → ∀ (f : Flags) (d : Nat) (x : Nest Int (d + 1)), (∀ i ∈ leaves (d + 1) x, t.Has i) →
    ∃ n, ∀ fuel, n ≤ fuel → ∃ s, readNest fuel (readLeafF t f.base) (d + 1)
      (IStream.ofList (printNest (putIntF t f) (d + 1) .fresh x).out) = some (.ok (x, s)) := by
  intro h
  have hx : ∀ i ∈ leaves 1 ([-1] : Nest Int 1), int32.Has i := by decide +kernel
  obtain ⟨n, hn⟩ := h int32 (by decide) ⟨.hex, false, false, false⟩ 0 [-1] hx
  obtain ⟨m, hm⟩ := C133_negative_refuted int32 (by decide) ⟨.hex, false, false, false⟩ (by decide) 0 [-1] hx (i := -1) (by simp [leaves]) (by decide)
  obtain ⟨s, hs⟩ := hn (max n m) (by omega)
  have := hm (max n m) (by omega) []
  rw [List.append_nil] at this
  rw [this] at hs
  cases hs

/-! ## A pending width -/

/-- `os` with the padding of the opening bracket already written. -/
def padded (os : OStream) : OStream := { os with out := os.out ++ List.replicate (os.width - 1) os.fill, width := 0 }

theorem print_padded {L : Type} (wr : OStream → L → OStream) (d : Nat) {os : OStream} (hf : os.failed = false) (x : Nest L (d + 1)) :
    printNest wr (d + 1) os x = printNest wr (d + 1) (padded os) x := by
  have hp : os.put ['['] = (padded os).put ['['] := by
    simp [OStream.put, padded, hf]
  show printVector (printNest wr d) os x = printVector (printNest wr d) (padded os) x
  cases x with
  | nil => simp only [printVector, printLoop, if_true, hp]
  | cons y ys => simp only [printVector, printLoop, if_true, hp]

/-- Blanks before a vector are skipped. -/
theorem nest_blank {L : Type} (fuel : Nat) (rd : IStream → Option (Res (L × IStream))) (d : Nat) {s : IStream} (hs : s.Plain) {u r : List Char}
    (hu : Blank u) (hr : s.rest = u ++ '[' :: r) : readNest fuel rd (d + 1) s = readNest fuel rd (d + 1) (s.adv u ('[' :: r)) := by
  have h1 := readChar_split hs hu (by decide) hr none
  have h2 := readChar_split (adv_plain hs u ('[' :: r)) (b := []) (x := '[') (r := r) blank_nil (by decide) rfl none
  rw [adv_adv, List.nil_append] at h2
  show readSequenceX _ _ _ _ _ _ = readSequenceX _ _ _ _ _ _
  simp only [readSequenceX, h1, h2]

/-- C133: a pending width pads the opening bracket. If the fill character is blank, this does not matter. -/
theorem C133_width_partial (t : IntType) (hw : 1 ≤ t.w) (f : Flags) (d : Nat) (x : Nest Int (d + 1)) (width : Nat) (fill : Char)
    (hfill : isSpace fill = true) (hx : ∀ i ∈ leaves (d + 1) x, t.Has i ∧ (f.base.radix = 10 ∨ 0 ≤ i)) :
    ∃ n, ∀ fuel, n ≤ fuel → ∀ rest, ∃ s, readNest fuel (readLeafF t f.base) (d + 1)
        (IStream.ofList ((printNest (putIntF t f) (d + 1) ⟨[], false, width, fill, false⟩ x).out ++ rest)) = some (.ok (x, s)) ∧
      s.rest = rest ∧ s.good = true := by
  have hout := (writes_nest (writes_text t f) (d + 1) (padded ⟨[], false, width, fill, false⟩) x rfl rfl).1
  rw [← print_padded (putIntF t f) d (os := ⟨[], false, width, fill, false⟩) rfl x] at hout
  obtain ⟨n, hn⟩ := outcome_plain t hw f f.base d x fun i hi => (hx i hi).1
  refine ⟨n, fun fuel hf rest => ?_⟩
  have hself : nestVal (numberRead t f f.base) (d + 1) x = some x := by
    rw [nestVal_self]
    intro i hi
    exact (numberRead_self hw f f.base (hx i hi).1).2 (survives_same (hx i hi).2)
  have hblank : Blank (List.replicate (width - 1) fill) := fun c hc => by rw [List.eq_of_mem_replicate hc]; exact hfill
  have hr : (IStream.ofList ((printNest (putIntF t f) (d + 1) ⟨[], false, width, fill, false⟩ x).out ++ rest)).rest =
      List.replicate (width - 1) fill ++ '[' :: (sepText [','] (x.map (nestText (intTextF t f) d)) ++ [']'] ++ rest) := by
    rw [hout]; simp [IStream.ofList, padded, nestText]
  rw [nest_blank fuel (readLeafF t f.base) d (plain_ofList _) hblank hr]
  refine ⟨_, (hn fuel hf _ rest (adv_plain (plain_ofList _) _ _) ?_).1 x hself, rfl, rfl⟩
  simp [adv, nestText]

/-- C133 fails: after a pending width with another fill character (that is not the opening bracket), reading throws. -/
theorem C133_fill_refuted (t : IntType) (f : Flags) (b : Base) (d : Nat) (x : Nest Int (d + 1)) (width : Nat) (hwd : 2 ≤ width) (fill : Char)
    (hfill : isSpace fill = false) (hne : fill ≠ '[') (fuel : Nat) (rest : List Char) :
    readNest fuel (readLeafF t b) (d + 1)
      (IStream.ofList ((printNest (putIntF t f) (d + 1) ⟨[], false, width, fill, false⟩ x).out ++ rest)) = some (.exn .iosFailure) := by
  have hout := (writes_nest (writes_text t f) (d + 1) (padded ⟨[], false, width, fill, false⟩) x rfl rfl).1
  rw [← print_padded (putIntF t f) d (os := ⟨[], false, width, fill, false⟩) rfl x] at hout
  obtain ⟨k, rfl⟩ : ∃ k, width = k + 2 := ⟨width - 2, by omega⟩
  have hr : (IStream.ofList ((printNest (putIntF t f) (d + 1) ⟨[], false, k + 2, fill, false⟩ x).out ++ rest)).rest =
      [] ++ fill :: (List.replicate k fill ++ nestText (intTextF t f) (d + 1) x ++ rest) := by
    rw [hout]; simp [IStream.ofList, padded, List.replicate_succ]
  have h1 := readChar_split (plain_ofList _) (b := []) blank_nil hfill hr none
  show readSequenceX _ _ _ '[' ']' ',' = _
  simp [readSequenceX, h1, hne]

/-! ## The default flags -/

theorem mark_digit {k : Nat} (up : Bool) (h : k < 10) : mark up k = Char.ofNat (48 + k) := by simp [mark, h]

theorem marks_decimal (up : Bool) (n : Nat) : (digs 10 n).map (mark up) = digits n := by
  induction n using Nat.strongRecOn with
  | _ n ih =>
    by_cases h : n < 10
    · rw [digs_small h, digits, if_pos h, List.map_singleton, mark_digit up h]
    · rw [digs_large (by decide) (by omega), digits, if_neg h, List.map_append, ih (n / 10) (by omega), List.map_singleton,
        mark_digit up (by omega)]

theorem isMark_ten (c : Char) : isMark 10 c = isDigit c := by
  simp only [isMark, markVal, isDigit]
  by_cases h : 48 ≤ c.toNat ∧ c.toNat ≤ 57
  · rw [if_pos h]
    simp only [h.1, h.2, decide_true, Bool.and_true]
    exact decide_eq_true (by omega)
  · rw [if_neg h]
    have : (decide (48 ≤ c.toNat) && decide (c.toNat ≤ 57)) = false := by
      rw [Bool.eq_false_iff]; intro e
      simp only [Bool.and_eq_true, decide_eq_true_eq] at e
      exact h e
    rw [this]
    by_cases h1 : 65 ≤ c.toNat ∧ c.toNat ≤ 70
    · rw [if_pos h1]; exact decide_eq_false (by omega)
    · rw [if_neg h1]
      by_cases h2 : 97 ≤ c.toNat ∧ c.toNat ≤ 102
      · rw [if_pos h2]; exact decide_eq_false (by omega)
      · rw [if_neg h2]

theorem markVal_digit {c : Char} (h : isDigit c = true) : markVal c = some (c.toNat - 48) := by
  simp only [isDigit, Bool.and_eq_true, decide_eq_true_eq] at h
  unfold markVal
  simp only [h, and_self, if_true]

theorem valueIn_ten (l : List Char) (acc : Nat) (h : ∀ c ∈ l, isDigit c = true) : valueIn 10 acc l = digitsValue acc l := by
  induction l generalizing acc with
  | nil => rfl
  | cons c l ih =>
    have hv : (markVal c).getD 0 = c.toNat - 48 := by rw [markVal_digit (h c List.mem_cons_self)]; rfl
    have ih' := ih (acc * 10 + (c.toNat - 48)) fun c hc => h c (List.mem_cons_of_mem _ hc)
    unfold valueIn digitsValue
    rw [hv]
    exact ih'

/-- C133: with the default flags the writer is the one of the other properties. -/
theorem C133_default_text (t : IntType) (up sb : Bool) (i : Int) : intTextF t ⟨.dec, sb, up, false⟩ i = intText i := by
  have := marks_decimal up i.natAbs
  simp only [intTextF, intText, marks, Base.radix, this]
  split <;> simp

/-- C133: with the default flags the reader of a signed type is the one of the other properties. -/
theorem C133_default_reader {t : IntType} (hw : 1 ≤ t.w) (ht : t.signed = true) (s : IStream) (x : Int) :
    readIntF t .dec s x = s.readInt t.lo t.hi x := by
  obtain ⟨h1, h2, h3, h4⟩ := hi_lt t hw
  have key : ∀ s : IStream, extractIntF t .dec s = extractInt t.lo t.hi s := by
    intro s
    have hp : isMark 10 = isDigit := funext isMark_ten
    have hv := valueIn_ten ((s.rest.drop (signLength s.rest)).takeWhile isDigit) 0 mem_takeWhile_imp
    simp only [extractIntF, extractInt, scanBase, List.drop_zero, List.take_zero, List.append_nil, hp, hv, represent, ht, if_true, Bool.true_and]
    split
    · rfl
    · by_cases hs : s.rest.take (signLength s.rest) = ['-']
      · simp only [hs, decide_true, if_true]
        generalize digitsValue 0 _ = m
        by_cases hl : - (m : Int) < t.lo
        · rw [if_neg (by omega), if_pos hl]
        · rw [if_pos (by omega), if_neg hl, if_neg (by omega)]
      · simp only [hs, decide_false, Bool.false_eq_true, if_false]
        generalize digitsValue 0 _ = m
        have hl : ¬ (m : Int) < t.lo := by omega
        by_cases hh : t.hi < (m : Int)
        · rw [if_neg (by omega), if_neg hl, if_pos hh]
        · rw [if_pos (by omega), if_neg hl, if_neg hh]
  simp only [readIntF, readInt, key]

/-! ## Letters, and numbers of other types -/

/-- C133: letters are capital or small as the flags say. -/
theorem C133_letters (t : IntType) (f : Flags) (i : Int) : ∀ c ∈ intTextF t f i,
    c ∈ (if f.uppercase then ['0', '1', '2', '3', '4', '5', '6', '7', '8', '9', 'A', 'B', 'C', 'D', 'E', 'F', 'X', '+', '-']
      else ['0', '1', '2', '3', '4', '5', '6', '7', '8', '9', 'a', 'b', 'c', 'd', 'e', 'f', 'x', '+', '-']) := by
  have hm : ∀ n, ∀ c ∈ marks f n, c ∈ (if f.uppercase then ['0', '1', '2', '3', '4', '5', '6', '7', '8', '9', 'A', 'B', 'C', 'D', 'E', 'F', 'X', '+', '-']
      else ['0', '1', '2', '3', '4', '5', '6', '7', '8', '9', 'a', 'b', 'c', 'd', 'e', 'f', 'x', '+', '-']) := by
    intro n c hc
    obtain ⟨k, hk, rfl⟩ := marks_mem hc
    have : ∀ (up : Bool) (k : Fin 16), mark up k.1 ∈ (if up then ['0', '1', '2', '3', '4', '5', '6', '7', '8', '9', 'A', 'B', 'C', 'D', 'E', 'F', 'X', '+', '-']
      else ['0', '1', '2', '3', '4', '5', '6', '7', '8', '9', 'a', 'b', 'c', 'd', 'e', 'f', 'x', '+', '-']) := by decide
    exact this f.uppercase ⟨k, hk⟩
  intro c hc
  simp only [intTextF] at hc
  split at hc <;> rcases List.mem_append.1 hc with hc | hc
  · split at hc <;> simp at hc
    subst hc; cases f.uppercase <;> decide
  · exact hm _ c hc
  · split at hc <;> simp at hc
    rcases hc with rfl | hc
    · cases f.uppercase <;> decide
    · cases hu : f.uppercase <;> rw [hu] at hc <;> simp at hc <;> subst hc <;> decide
  · exact hm _ c hc
  · split at hc
    · simp at hc; subst hc; cases f.uppercase <;> decide
    · split at hc <;> simp at hc
      subst hc; cases f.uppercase <;> decide
  · exact hm _ c hc

/-- C133: a list of negative numbers written in decimal and read as a list of an unsigned type of `w` bits: each number that has a value of at most
`2 ^ w - 1` is read modulo `2 ^ w`, without an error. -/
theorem C133_unsigned_refuted (w w' : Nat) (sb up sp : Bool) (xs : List Int) (hx : ∀ i ∈ xs, i < 0 ∧ i.natAbs < 2 ^ w') :
    ∃ n, ∀ fuel, n ≤ fuel → ∀ rest, ∃ s, readNest fuel (readLeafF ⟨w', false⟩ .dec) 1
        (IStream.ofList ((printNest (putIntF ⟨w, true⟩ ⟨.dec, sb, up, sp⟩) 1 .fresh xs).out ++ rest)) = some (.ok (xs.map (· + 2 ^ w'), s)) ∧
      s.rest = rest ∧ s.good = true := by
  have hp : ∀ i ∈ xs, parse ⟨w', false⟩ .dec (intTextF ⟨w, true⟩ ⟨.dec, sb, up, sp⟩ i) = some (i + 2 ^ w') := by
    intro i hi
    obtain ⟨h1, h2⟩ := hx i hi
    have := parse_marks ⟨w', false⟩ ⟨.dec, sb, up, sp⟩ .dec (sg := ['-']) (.inr (.inr rfl)) (n := i.natAbs) (by omega) 10 rfl
    simp only [intTextF, h1, if_true]
    rw [this]
    refine (if_pos (show ∀ k ∈ digs 10 i.natAbs, k < 10 from digs_lt (by decide) _)).trans ?_
    show represent _ _ (value 10 (digs 10 i.natAbs)) = _
    rw [value_self (by decide)]
    have h3 : ((i.natAbs : Nat) : Int) < 2 ^ w' := by exact_mod_cast h2
    simp only [represent, IntType.hi, Bool.false_eq_true, if_false, decide_true, if_true]
    generalize (2 : Int) ^ w' = p at *
    rw [if_pos (by omega)]
    congr 1
    rw [← Int.add_emod_right, Int.emod_eq_of_lt (by omega) (by omega)]
    omega
  have hout := (writes_nest (writes_text ⟨w, true⟩ ⟨.dec, sb, up, sp⟩) 1 .fresh xs rfl rfl).1
  have hall := nest_outcome (rd := readLeafF ⟨w', false⟩ .dec) (txt := intTextF ⟨w, true⟩ ⟨.dec, sb, up, sp⟩)
    (val := fun i => some (i + 2 ^ w')) (text_begins _ _) 0 xs (fun i hi => by
      have hi' : i ∈ xs := by
        obtain ⟨l, hl, hil⟩ := List.mem_flatten.1 hi
        obtain ⟨z, hz, rfl⟩ := List.mem_map.1 hl
        rw [List.mem_singleton.1 hil]; exact hz
      exact ⟨fun z hz => leaf_good (text_clean _ _ i) (text_ne _ _ i) ((hp i hi').trans hz), fun hz => by cases hz⟩)
  obtain ⟨n, hn⟩ := hall
  have hval : ∀ ys : List Int, listVal (fun i => some (i + 2 ^ w')) ys = some (ys.map (· + 2 ^ w')) := by
    intro ys
    induction ys with
    | nil => rfl
    | cons y ys ih => simp only [listVal, ih, List.map_cons]
  refine ⟨n, fun fuel hf rest => ⟨_, (hn fuel hf (IStream.ofList ((printNest (putIntF ⟨w, true⟩ ⟨.dec, sb, up, sp⟩) 1 .fresh xs).out ++ rest)) rest
    (plain_ofList _) (by rw [hout]; rfl)).1 _ (hval xs), rfl, rfl⟩⟩

/-! Non-vacuity -/

/-- `[-1]` is read as `[4294967295]`. -/
example : ∀ i ∈ ([-1] : List Int), i < 0 ∧ i.natAbs < 2 ^ 32 := by decide

/-- Hexadecimal, with base, in upper case; read without a base. -/
example : (printNest (putIntF int32 ⟨.hex, true, true, false⟩) 2 .fresh ([[255, 0], [16]] : Nest Int 2)).out = "[[0XFF,0],[0X10]]".toList ∧
    (∀ i ∈ leaves 2 ([[255, 0], [16]] : Nest Int 2), int32.Has i ∧ Survives ⟨.hex, true, true, false⟩ .unset i) := by
  refine ⟨by decide +kernel, fun i hi => ?_⟩
  simp [leaves] at hi
  rcases hi with rfl | rfl | rfl
  · exact ⟨by decide +kernel, .inr (by decide)⟩
  · exact ⟨by decide +kernel, .inl rfl⟩
  · exact ⟨by decide +kernel, .inr (by decide)⟩

/-- Octal with base and a plus sign for decimals; a negative number in hexadecimal. -/
example : (printNest (putIntF int32 ⟨.oct, true, false, true⟩) 1 .fresh ([8, 0, 7] : Nest Int 1)).out = "[010,0,07]".toList ∧
    (printNest (putIntF int32 ⟨.dec, true, false, true⟩) 1 .fresh ([8, 0, -7] : Nest Int 1)).out = "[+8,+0,-7]".toList ∧
    (printNest (putIntF int32 ⟨.hex, false, false, true⟩) 1 .fresh ([-1] : Nest Int 1)).out = "[ffffffff]".toList := by
  decide +kernel

/-- A `short` with the least value, written in hexadecimal and read in decimal: another number, no error. -/
example : numberRead ⟨16, true⟩ ⟨.hex, false, false, false⟩ .dec (-32768) = some 8000 := by decide +kernel

/-- A pending width of 5. -/
example : (printNest (putIntF int32 ⟨.dec, false, false, false⟩) 1 ⟨[], false, 5, '*', false⟩ ([1, 2] : Nest Int 1)).out = "****[1,2]".toList := by
  decide +kernel

end Helper.Seq.Format
