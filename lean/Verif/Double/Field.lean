import Verif.Double.Decimal
import Verif.Seq.Nested
/-!
# Lemmas on the texts of numbers
-/
set_option linter.unusedSectionVars false
namespace Helper.Double
open IStream OStream

/-! ### Values of digits -/

theorem digitsValue_nil (n : Nat) : digitsValue n [] = n := rfl

theorem digitsValue_cons (n : Nat) (c : Char) (t : List Char) : digitsValue n (c :: t) = digitsValue (n * 10 + (c.toNat - 48)) t := by
  rw [digitsValue_eq, digitsValue_eq, List.foldl_cons]

theorem digitsValue_acc (b : List Char) : ∀ n : Nat, digitsValue n b = n * 10 ^ b.length + digitsValue 0 b := by
  induction b with
  | nil => intro n; rw [digitsValue_nil, digitsValue_nil]; simp
  | cons c t ih =>
    intro n
    rw [digitsValue_cons, digitsValue_cons, ih, ih (0 * 10 + _), List.length_cons, Nat.pow_succ]
    generalize digitsValue 0 t = v
    generalize c.toNat - 48 = d
    generalize 10 ^ t.length = q
    grind

theorem digitsValue_app (b : List Char) : ∀ (a : List Char) (n : Nat), digitsValue n (a ++ b) = digitsValue (digitsValue n a) b := by
  intro a
  induction a with
  | nil => intro n; rw [digitsValue_nil, List.nil_append]
  | cons c t ih => intro n; rw [List.cons_append, digitsValue_cons, digitsValue_cons, ih]

theorem digitsValue_append (a b : List Char) : digitsValue 0 (a ++ b) = digitsValue 0 a * 10 ^ b.length + digitsValue 0 b := by
  rw [digitsValue_app, digitsValue_acc]

theorem digitsValue_zeros (n : Nat) : digitsValue 0 (List.replicate n '0') = 0 := by
  induction n with
  | zero => rfl
  | succ n ih => exact ih

theorem digits_length : ∀ (P m : Nat), 0 < P → 10 ^ (P - 1) ≤ m → m < 10 ^ P → (digits m).length = P := by
  intro P
  induction P with
  | zero => intro m h; omega
  | succ P ih =>
    intro m _ h1 h2
    rw [digits]
    split
    · rename_i h
      rw [Nat.add_sub_cancel] at h1
      have : P = 0 := by
        apply Classical.byContradiction
        intro h0
        obtain ⟨k, rfl⟩ : ∃ k, P = k + 1 := ⟨P - 1, by omega⟩
        have : 0 < 10 ^ k := Nat.pow_pos (by decide)
        rw [Nat.pow_succ] at h1
        omega
      subst this; rfl
    · rename_i h
      rw [Nat.add_sub_cancel] at h1
      have h0 : 0 < P := by
        apply Classical.byContradiction
        intro h0
        obtain rfl : P = 0 := by omega
        simp at h2; omega
      obtain ⟨k, rfl⟩ : ∃ k, P = k + 1 := ⟨P - 1, by omega⟩
      rw [List.length_append, ih (m / 10) (by omega)]
      · rfl
      · rw [Nat.add_sub_cancel]; rw [Nat.pow_succ] at h1; omega
      · rw [Nat.pow_succ] at h2; omega

theorem digits_value (n : Nat) : digitsValue 0 (digits n) = n := by
  rw [digitsValue_numeral]; exact (Seq.digits_spec n).1

theorem digits_isDigit (n : Nat) : ∀ c ∈ digits n, isDigit c = true := fun c hc => isDigit_iff.2 ((Seq.digits_spec n).2 c hc)

theorem trim_spec (ds : List Char) : ∃ n, ds = trim ds ++ List.replicate n '0' := by
  have key : ∀ l : List Char, ∃ n, l = List.replicate n '0' ++ l.dropWhile (· == '0') := by
    intro l
    induction l with
    | nil => exact ⟨0, rfl⟩
    | cons c t ih =>
      by_cases h : c = '0'
      · obtain ⟨n, hn⟩ := ih
        refine ⟨n + 1, ?_⟩
        subst h
        rw [List.dropWhile_cons, if_pos (by decide), List.replicate_succ, List.cons_append, ← hn]
      · exact ⟨0, by rw [List.dropWhile_cons, if_neg (by simpa using h)]; rfl⟩
  obtain ⟨n, hn⟩ := key ds.reverse
  refine ⟨n, ?_⟩
  have := congrArg List.reverse hn
  rw [List.reverse_reverse, List.reverse_append, List.reverse_replicate] at this
  exact this

theorem trim_mem {ds : List Char} {c : Char} (h : c ∈ trim ds) : c ∈ ds := by
  obtain ⟨n, hn⟩ := trim_spec ds
  rw [hn]; exact List.mem_append.2 (.inl h)

/-- Zeros at the end of the fraction do not count. -/
theorem trim_value (w ds : List Char) (e : Int) :
    (digitsValue 0 (w ++ trim ds) : Rat) * (10 : Rat) ^ (e - ((trim ds).length : Int)) =
      (digitsValue 0 (w ++ ds) : Rat) * (10 : Rat) ^ (e - (ds.length : Int)) := by
  obtain ⟨n, hn⟩ := trim_spec ds
  generalize trim ds = t at hn
  subst hn
  rw [← List.append_assoc, digitsValue_append (w ++ t), digitsValue_zeros, List.length_replicate, Nat.add_zero, Rat.natCast_mul, ← ten_nat,
    List.length_append, List.length_replicate, Int.natCast_add, Rat.mul_assoc, ← ten_add]
  congr 2
  omega

/-! ### Fields -/

/-- A character that can be told from the others in a written vector: neither a digit, nor the `e` of the exponents, nor one of the
separators. -/
structure GoodPoint (dp : Char) : Prop where
  digit : isDigit dp = false
  exp : dp ≠ 'e'
  comma : dp ≠ ','
  bracket : dp ≠ ']'

/-- What follows an element. -/
def Delim (l : List Char) : Prop := ∃ d r, l = d :: r ∧ (d = ',' ∨ d = ']')

theorem Delim.notDigit {l : List Char} (h : Delim l) : ∀ c r, l = c :: r → isDigit c = false := by
  obtain ⟨d, r, rfl, h⟩ := h
  rintro c r' e
  obtain ⟨rfl, rfl⟩ := List.cons.inj e
  rcases h with rfl | rfl <;> decide

/-- The digits of an exponent. -/
def expDigits (X : Int) : List Char := if (digits X.natAbs).length < 2 then '0' :: digits X.natAbs else digits X.natAbs

theorem expText_eq (X : Int) : expText X = 'e' :: (if X < 0 then '-' else '+') :: expDigits X := rfl

theorem expDigits_spec (X : Int) : (∀ c ∈ expDigits X, isDigit c = true) ∧ expDigits X ≠ [] ∧ digitsValue 0 (expDigits X) = X.natAbs := by
  unfold expDigits
  split
  · refine ⟨?_, by simp, ?_⟩
    · intro c hc
      rcases List.mem_cons.1 hc with rfl | hc
      · decide
      · exact digits_isDigit _ c hc
    · rw [show digitsValue 0 ('0' :: digits X.natAbs) = digitsValue 0 (digits X.natAbs) from rfl, digits_value]
  · exact ⟨digits_isDigit _, Seq.digits_ne_nil _, digits_value _⟩

/-- The fraction that is read back. -/
def fracOf (fr : List Char) : Option (List Char) := if fr.isEmpty then none else some fr

theorem digit_head {w : List Char} (hw : ∀ c ∈ w, isDigit c = true) (hne : w ≠ []) (l : List Char) : signLength (w ++ l) = 0 := by
  obtain ⟨c, t, rfl⟩ := List.exists_cons_of_ne_nil hne
  have hc := hw c (by simp)
  rcases signLength_cases (c :: t ++ l) with ⟨_, r, h⟩ | ⟨_, r, h⟩ | ⟨h, _⟩
  · obtain ⟨rfl, _⟩ := List.cons.inj h; exact absurd hc (by decide)
  · obtain ⟨rfl, _⟩ := List.cons.inj h; exact absurd hc (by decide)
  · exact h

section
variable {dp : Char} (hdp : GoodPoint dp) {sign w fr : List Char} (hs : sign = [] ∨ sign = ['-']) (hw : ∀ c ∈ w, isDigit c = true) (hne : w ≠ [])
  (hf : ∀ c ∈ fr, isDigit c = true)
include hs hw hne

theorem sign_split (l : List Char) : signLength (sign ++ (w ++ l)) = sign.length := by
  rcases hs with rfl | rfl
  · rw [List.nil_append]; exact digit_head hw hne l
  · rfl

include hdp hf

/-- The parts before the exponent. -/
theorem field_start (l : List Char) (hl : ∀ c r, l = c :: r → isDigit c = false) (hp : ∀ c r, l = c :: r → c ≠ dp) :
    field dp (sign ++ (w ++ (point dp fr ++ l))) = fieldEnd sign w (fracOf fr) l := by
  have h1 := sign_split hs hw hne (point dp fr ++ l)
  have hpoint : ∀ c r, point dp fr ++ l = c :: r → isDigit c = false := by
    intro c r h
    unfold point at h
    split at h
    · exact hl c r h
    · obtain ⟨rfl, _⟩ := List.cons.inj h; exact hdp.digit
  have h2 := takeWhile_digits hw hpoint
  have hwe : w.isEmpty = false := by cases w with | nil => exact absurd rfl hne | cons _ _ => rfl
  have hfrac : fraction dp (point dp fr ++ l) = (fracOf fr, l) := by
    unfold point fracOf
    cases fr with
    | nil =>
      simp only [List.isEmpty_nil, if_true, List.nil_append]
      cases l with
      | nil => rfl
      | cons c r => rw [fraction, if_neg (hp c r rfl)]
    | cons c t =>
      have h3 := takeWhile_digits hf hl
      simp only [List.isEmpty_cons, Bool.false_eq_true, if_false]
      show fraction dp (dp :: ((c :: t) ++ l)) = _
      rw [fraction, if_pos rfl, h3.1, h3.2]
  unfold field
  simp only [h1, List.take_left', List.drop_left', h2.1, h2.2, hfrac, hwe, Bool.false_and, Bool.false_eq_true, if_false]

theorem field_plain {l : List Char} (hl : Delim l) :
    field dp (sign ++ (w ++ (point dp fr ++ l))) = ⟨sign, w, fracOf fr, none, l⟩ := by
  rw [field_start hdp hs hw hne hf l hl.notDigit (by
    obtain ⟨d, r, rfl, h⟩ := hl
    rintro c r' e
    obtain ⟨rfl, rfl⟩ := List.cons.inj e
    rcases h with rfl | rfl
    · exact hdp.comma.symm
    · exact hdp.bracket.symm)]
  obtain ⟨d, r, rfl, h⟩ := hl
  rcases h with rfl | rfl <;> rfl

theorem field_exp {l : List Char} (hl : Delim l) (X : Int) :
    field dp (sign ++ (w ++ (point dp fr ++ (expText X ++ l)))) = ⟨sign, w, fracOf fr, some ([if X < 0 then '-' else '+'], expDigits X), l⟩ := by
  rw [field_start hdp hs hw hne hf (expText X ++ l) (by rintro c r e; obtain ⟨rfl, _⟩ := List.cons.inj e; decide)
    (by rintro c r e; obtain ⟨rfl, _⟩ := List.cons.inj e; exact hdp.exp.symm)]
  have h := takeWhile_digits (expDigits_spec X).1 hl.notDigit
  have hsl : ∀ r, signLength ((if X < 0 then '-' else '+') :: r) = 1 := by intro r; split <;> rfl
  rw [show expText X ++ l = 'e' :: ((if X < 0 then '-' else '+') :: (expDigits X ++ l)) from rfl]
  show exponent _ _ _ _ = _
  unfold exponent
  simp only [hsl, List.take_succ_cons, List.take_zero, List.drop_succ_cons, List.drop_zero, h.1, h.2]

end

/-! ### The written texts -/

/-- The value of a field, for the fields that are written. -/
theorem value_plain {sign w fr l : List Char} (hne : w ≠ []) :
    (Field.mk sign w (fracOf fr) none l).value =
      some (if sign = ['-'] then -((digitsValue 0 (w ++ fr) : Rat) * (10 : Rat) ^ (0 - (fr.length : Int)))
        else (digitsValue 0 (w ++ fr) : Rat) * (10 : Rat) ^ (0 - (fr.length : Int))) := by
  have hwe : w.isEmpty = false := by cases w with | nil => exact absurd rfl hne | cons _ _ => rfl
  have hfr : (fracOf fr).getD [] = fr := by unfold fracOf; cases fr <;> rfl
  simp only [Field.value, hfr, hwe, Bool.false_and, Bool.false_eq_true, if_false, Option.map_some]

theorem value_exp {sign w fr l : List Char} (hne : w ≠ []) (X : Int) :
    (Field.mk sign w (fracOf fr) (some ([if X < 0 then '-' else '+'], expDigits X)) l).value =
      some (if sign = ['-'] then -((digitsValue 0 (w ++ fr) : Rat) * (10 : Rat) ^ (X - (fr.length : Int)))
        else (digitsValue 0 (w ++ fr) : Rat) * (10 : Rat) ^ (X - (fr.length : Int))) := by
  have hwe : w.isEmpty = false := by cases w with | nil => exact absurd rfl hne | cons _ _ => rfl
  have hfr : (fracOf fr).getD [] = fr := by unfold fracOf; cases fr <;> rfl
  obtain ⟨_, hx1, hx2⟩ := expDigits_spec X
  have hxe : (expDigits X).isEmpty = false := by cases h : expDigits X with | nil => exact absurd h hx1 | cons _ _ => rfl
  have hX : (if [if X < 0 then '-' else '+'] = ['-'] then -(digitsValue 0 (expDigits X) : Int) else digitsValue 0 (expDigits X)) = X := by
    rw [hx2]
    by_cases h : X < 0
    · simp only [h, if_true]; omega
    · simp only [h, if_false]
      rw [if_neg (by decide)]; omega
  simp only [Field.value, hfr, hwe, Bool.false_and, hxe, Bool.false_eq_true, if_false, Option.map_some, hX]

/-- The field and the value of a written positive number, with or without a minus sign. -/
theorem decText_field {dp : Char} (hdp : GoodPoint dp) {P m : Nat} (hP : 0 < P) (h1 : 10 ^ (P - 1) ≤ m) (h2 : m < 10 ^ P) (X : Int) {sign : List Char}
    (hs : sign = [] ∨ sign = ['-']) {l : List Char} (hl : Delim l) :
    (field dp (sign ++ (decText dp P m X ++ l))).rest = l ∧ (field dp (sign ++ (decText dp P m X ++ l))).value =
      some (if sign = ['-'] then -decValue P (m, X) else decValue P (m, X)) := by
  have hlen := digits_length P m hP h1 h2
  have hdig := digits_isDigit m
  have hval := digits_value m
  unfold decText
  generalize digits m = ds at *
  simp only
  split
  · -- with an exponent
    have hw : ∀ c ∈ ds.take 1, isDigit c = true := fun c hc => hdig c (List.mem_of_mem_take hc)
    have hne : ds.take 1 ≠ [] := by
      intro h; have := congrArg List.length h; rw [List.length_take, hlen] at this; simp at this; omega
    have hf : ∀ c ∈ trim (ds.drop 1), isDigit c = true := fun c hc => hdig c (List.mem_of_mem_drop (trim_mem hc))
    have hfield := field_exp hdp hs hw hne hf hl X
    have e : sign ++ (ds.take 1 ++ point dp (trim (ds.drop 1)) ++ expText X ++ l) = sign ++ (ds.take 1 ++ (point dp (trim (ds.drop 1)) ++ (expText X ++ l))) := by
      simp only [List.append_assoc]
    rw [e, hfield]
    refine ⟨rfl, ?_⟩
    rw [value_exp hne, trim_value, List.take_append_drop, hval, List.length_drop, hlen, decValue]
    have : X - ((P - 1 : Nat) : Int) = X + 1 - (P : Int) := by omega
    rw [this]
  · rename_i hX
    split
    · rename_i hX0
      obtain ⟨n, rfl⟩ : ∃ n : Nat, X = n := ⟨X.toNat, by omega⟩
      rw [Int.toNat_natCast]
      have hw : ∀ c ∈ ds.take (n + 1), isDigit c = true := fun c hc => hdig c (List.mem_of_mem_take hc)
      have hne : ds.take (n + 1) ≠ [] := by
        intro h; have := congrArg List.length h; rw [List.length_take, hlen] at this; simp at this; omega
      have hf : ∀ c ∈ trim (ds.drop (n + 1)), isDigit c = true := fun c hc => hdig c (List.mem_of_mem_drop (trim_mem hc))
      have hfield := field_plain hdp hs hw hne hf hl
      have e : sign ++ (ds.take (n + 1) ++ point dp (trim (ds.drop (n + 1))) ++ l) = sign ++ (ds.take (n + 1) ++ (point dp (trim (ds.drop (n + 1))) ++ l)) := by
        simp only [List.append_assoc]
      rw [e, hfield]
      refine ⟨rfl, ?_⟩
      rw [value_plain hne, trim_value, List.take_append_drop, hval, List.length_drop, hlen, decValue]
      have : 0 - ((P - (n + 1) : Nat) : Int) = (n : Int) + 1 - (P : Int) := by omega
      rw [this]
    · rename_i hX0
      obtain ⟨n, hn⟩ : ∃ n : Nat, X = -(n : Int) - 1 := ⟨(-X - 1).toNat, by omega⟩
      rw [show (-X - 1).toNat = n by omega]
      have hw : ∀ c ∈ ['0'], isDigit c = true := by simp; decide
      have hf : ∀ c ∈ trim (List.replicate n '0' ++ ds), isDigit c = true := by
        intro c hc
        rcases List.mem_append.1 (trim_mem hc) with h | h
        · rw [(List.mem_replicate.1 h).2]; decide
        · exact hdig c h
      have hfield := field_plain hdp hs hw (by simp) hf hl
      have e : sign ++ ('0' :: point dp (trim (List.replicate n '0' ++ ds)) ++ l) = sign ++ (['0'] ++ (point dp (trim (List.replicate n '0' ++ ds)) ++ l)) := by
        simp
      rw [e, hfield]
      refine ⟨rfl, ?_⟩
      rw [value_plain (by simp), trim_value, ← List.append_assoc, digitsValue_append (['0'] ++ List.replicate n '0'), hval,
        show ['0'] ++ List.replicate n '0' = List.replicate (n + 1) '0' from rfl, digitsValue_zeros, Nat.zero_mul, Nat.zero_add, List.length_append,
        List.length_replicate, hlen, decValue]
      have : 0 - ((n + P : Nat) : Int) = X + 1 - (P : Int) := by omega
      rw [this]

/-- The number that a written text denotes. -/
def written (P : Nat) (x : Rat) : Rat :=
  if x = 0 then 0 else if x < 0 then -decValue (max P 1) (decimal (max P 1) (-x)) else decValue (max P 1) (decimal (max P 1) x)

theorem text_field {dp : Char} (hdp : GoodPoint dp) (P : Nat) (x : Rat) {l : List Char} (hl : Delim l) :
    (field dp (text dp P x ++ l)).rest = l ∧ (field dp (text dp P x ++ l)).value = some (written P x) := by
  unfold text written
  have hP : 0 < max P 1 := by omega
  generalize max P 1 = P at hP
  simp only
  by_cases h0 : x = 0
  · rw [if_pos h0, if_pos h0]
    have hfield := field_plain hdp (sign := []) (w := ['0']) (fr := []) (.inl rfl) (by simp; decide) (by simp) (by simp) hl
    have e : ['0'] ++ l = [] ++ (['0'] ++ (point dp [] ++ l)) := rfl
    rw [e, hfield]
    refine ⟨rfl, ?_⟩
    rw [value_plain (by simp), if_neg (by decide)]
    have : (digitsValue 0 (['0'] ++ []) : Rat) = 0 := rfl
    rw [this, Rat.zero_mul]
  · rw [if_neg h0, if_neg h0]
    by_cases h : x < 0
    · rw [if_pos h, if_pos h]
      have hx : 0 < -x := by grind
      obtain ⟨a, b⟩ := decimal_spec hP hx
      have := decText_field hdp hP a b (decimal P (-x)).2 (.inr rfl) hl
      rw [if_pos rfl] at this
      exact this
    · rw [if_neg h, if_neg h]
      have hx : 0 < x := by grind
      obtain ⟨a, b⟩ := decimal_spec hP hx
      have := decText_field hdp hP a b (decimal P x).2 (.inl rfl) hl
      rw [if_neg (by decide)] at this
      exact this

/-- The text begins with a digit or a minus sign. -/
theorem text_begins (dp : Char) (P : Nat) (x : Rat) : Seq.Begins (text dp P x) := by
  have dig : ∀ c : Char, isDigit c = true → isSpace c = false ∧ c ≠ ']' := fun c hc => ⟨isDigit_not_space hc, by rintro rfl; exact absurd hc (by decide)⟩
  have head : ∀ (n : Nat) (m : Nat) (t : List Char), ∃ c r, (digits m).take (n + 1) ++ t = c :: r ∧ isSpace c = false ∧ c ≠ ']' := by
    intro n m t
    obtain ⟨c, r, h⟩ := List.exists_cons_of_ne_nil (Seq.digits_ne_nil m)
    rw [h]
    exact ⟨c, _, rfl, dig c (digits_isDigit m c (by rw [h]; simp))⟩
  have dec : ∀ (P m : Nat) (X : Int), Seq.Begins (decText dp P m X) := by
    intro P m X
    unfold decText
    simp only
    split
    · rw [List.append_assoc]; exact head 0 m _
    · split
      · exact head _ m _
      · exact ⟨'0', _, rfl, by decide, by decide⟩
  unfold text
  simp only
  split
  · exact ⟨'0', [], rfl, by decide, by decide⟩
  · split
    · exact ⟨'-', _, rfl, by decide, by decide⟩
    · exact dec _ _ _

/-- Reading a written number. -/
theorem read_text {dp : Char} (hdp : GoodPoint dp) (p P : Nat) (x x0 : Rat) {s : IStream} (hs : s.Plain) {l : List Char} (hl : Delim l) (hr : s.rest = text dp P x ++ l) :
    read dp p s x0 = (round p (written P x), s.adv (text dp P x) l) := by
  obtain ⟨h1, h2⟩ := text_field hdp P x hl
  obtain ⟨c, r, ht, hc, _⟩ := text_begins dp P x
  have hr' : s.rest = [] ++ c :: (r ++ l) := by rw [hr, ht]; rfl
  have hsent := sentry_split hs blank_nil hc hr'
  unfold read
  rw [hsent]
  simp only [if_true]
  have hrest : (s.adv [] (c :: (r ++ l))).rest = text dp P x ++ l := by rw [ht]; rfl
  unfold extract
  rw [hrest]
  simp only [h1, h2]
  congr 1
  have hle : l.isEmpty = false := by obtain ⟨d, t, rfl, _⟩ := hl; rfl
  have heof := hs.eof
  have htake : (text dp P x ++ l).take ((text dp P x ++ l).length - l.length) = text dp P x := by
    rw [List.length_append, Nat.add_sub_cancel, List.take_left']; rfl
  rw [htake, hle]
  simp [adv]

end Helper.Double
