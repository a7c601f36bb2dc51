import Verif.Double.RangeProps
set_option linter.unusedSectionVars false
/-!
# Property C129: numbers that were written by something else

What `is >> x` stores and sets for a numeral in any of the usual ways of writing (`1e5`, `.5`, `+3.`), with blanks before it, for streams that have
failed, and for vectors of such numerals.
-/
namespace Helper.Double
open IStream OStream Helper.Seq

variable {F : Format} {dp : Char}

/-- What is read from a numeral: the nearest value with the sign that is written, if it is not too large. -/
def numV (F : Format) (n : Numeral) : Option Val :=
  if (2 : Rat) ^ F.hi ≤ near F (size n.value) then none else some (.fin (n.sign == some true) (near F (size n.value)))

/-- C129: what one extraction does, after any blanks: the numeral is consumed; the nearest value is stored, or the largest one if there is none
near enough, and failbit is set. -/
theorem C129_field (hdp : PlainPoint dp) {n : Numeral} (hv : n.Valid) {s : IStream} (hs : s.Plain) {b l : List Char} (hb : Blank b) (hl : Delim l)
    (hr : s.rest = b ++ (n.text dp ++ l)) (x : Val) :
    Val.read dp F s x = match numV F n with
      | some y => (y, s.adv (b ++ n.text dp) l)
      | none => (.fin (n.sign == some true) (largest F), { s.adv (b ++ n.text dp) l with fail := true }) := by
  have h1 := Numeral.field_text hdp hv hl
  have h2 := Numeral.field_value hv l
  obtain ⟨c, t, ht, hc, _⟩ := Numeral.text_begins hdp hv
  have hr' : s.rest = b ++ c :: (t ++ l) := by rw [hr, ht]; rfl
  have hsent := sentry_split hs hb hc hr'
  have hrest : (s.adv b (c :: (t ++ l))).rest = n.text dp ++ l := by rw [ht]; rfl
  have hl0 : l.isEmpty = false := by obtain ⟨_, _, rfl, _⟩ := hl; rfl
  have hneg : decide (Numeral.signText n.sign = ['-']) = (n.sign == some true) := by
    cases n.sign with
    | none => rfl
    | some b => cases b <;> rfl
  have htake : (n.text dp ++ l).take ((n.text dp ++ l).length - l.length) = n.text dp := by
    rw [List.length_append, Nat.add_sub_cancel, List.take_left']; rfl
  unfold Val.read
  rw [hsent]
  simp only [if_true]
  unfold Val.extract numV
  rw [hrest, h1]
  simp only [h2, hneg, htake, hl0]
  by_cases ho : (2 : Rat) ^ F.hi ≤ near F (size n.value)
  · rw [if_pos ho, if_pos ho]
    simp [adv]
  · rw [if_neg ho, if_neg ho]
    simp [adv]

/-- C129: an extraction from a stream that is not good leaves the variable alone and sets failbit. -/
theorem C129_notGood {s : IStream} (hs : s.good = false) (x : Val) : Val.read dp F s x = (x, { s with fail := true }) := by
  simp [Val.read, sentry, hs]

/-- C129: at the end of the stream the variable is left alone too. -/
theorem C129_end {s : IStream} (hs : s.Plain) (hb : Blank s.rest) (x : Val) :
    Val.read dp F s x = (x, { s.adv s.rest [] with eof := true, fail := true }) := by
  unfold Val.read
  rw [sentry_blank hs hb]
  rfl

/-- C129: a vector of numerals, nested to any depth, is read as the nearest values; if one of them is too large, an exception is thrown. -/
theorem C129_numerals (hdp : PlainPoint dp) (x0 : Val) (d : Nat) (x : Nest { n : Numeral // n.Valid } (d + 1)) :
    ∃ k, ∀ fuel, k ≤ fuel → ∀ rest,
      let r := readNest fuel (fun s => some (.ok (Val.read dp F s x0))) (d + 1)
        (IStream.ofList (nestText (fun n => n.val.text dp) (d + 1) x ++ rest))
      match readable (fun n => numV F n.val) (d + 1) x with
      | some y => ∃ s, r = some (.ok (y, s)) ∧ s.rest = rest ∧ s.good = true
      | none => r = some (.exn .iosFailure) := by
  obtain ⟨k, hk⟩ := nest_total (A := { n : Numeral // n.Valid }) (rd := fun s => some (.ok (Val.read dp F s x0))) (txt := fun n => n.val.text dp)
    (val := fun n => numV F n.val) (fun n => Numeral.text_begins hdp n.property) d x (by
      rintro ⟨n, hv⟩ _
      show ReadsOr _ (n.text dp) (numV F n)
      have h := fun (s : IStream) (c : Char) (r : List Char) (hs : s.Plain) (hc : c = ',' ∨ c = ']') (hr : s.rest = n.text dp ++ c :: r) =>
        C129_field (F := F) hdp hv hs (b := []) blank_nil ⟨c, r, rfl, hc⟩ hr x0
      revert h
      cases numV F n with
      | some y => exact fun h s c r hs hc hr => congrArg (fun q => some (Res.ok q)) (h s c r hs hc hr)
      | none =>
        intro h s c r hs hc hr
        exact .inr ⟨_, _, congrArg (fun q => some (Res.ok q)) (h s c r hs hc hr), by simp [IStream.failed]⟩)
  refine ⟨k, fun fuel hf rest => ?_⟩
  have h := hk fuel hf (IStream.ofList (nestText (fun n => n.val.text dp) (d + 1) x ++ rest)) rest (plain_ofList _) rfl
  intro r
  revert h
  cases readable (fun n : { n : Numeral // n.Valid } => numV F n.val) (d + 1) x with
  | none => exact fun h => h
  | some y => exact fun h => ⟨_, h, rfl, rfl⟩

/-- `1e400` is too large, `-1E-400` is minus zero, `.5` is a half. -/
example : numV binary64 ⟨none, [1], none, some (false, none, [4, 0, 0])⟩ = none ∧
    numV binary64 ⟨some true, [1], none, some (true, some true, [4, 0, 0])⟩ = some (.fin true 0) ∧
    numV binary64 ⟨none, [], some [5], none⟩ = some (.fin false (1 / 2)) := by
  decide +kernel

/-- They are read so. -/
example : (Val.read '.' binary64 (IStream.ofList " \t-1E-400]".toList) (.nan false)).1 = .fin true 0 ∧
    (Val.read '.' binary64 (IStream.ofList "1e400]".toList) (.nan false)).1 = .fin false (largest binary64) ∧
    (Val.read '.' binary64 (IStream.ofList "  ".toList) (.nan false)).1 = .nan false := by
  decide +kernel

end Helper.Double
