import Verif.Double.ReadBack
/-!
# Vectors of doubles that were written by hand (C120)

Which numbers a vector holds after it was read from a text in which numbers are written in any of the usual ways, not only as `os << x`
writes them.
-/
set_option linter.unusedSectionVars false
namespace Helper.Double
open Helper.Seq IStream

/-- A decimal number as it can be written in C++ and by hand: sign, digits before and after the decimal point, and exponent. -/
structure Numeral where
  /-- `some true` is a minus -/
  sign : Option Bool
  whole : List (Fin 10)
  /-- digits after the point, none if there is no point -/
  frac : Option (List (Fin 10))
  /-- capital letter, sign, digits -/
  exp : Option (Bool × Option Bool × List (Fin 10))

namespace Numeral

/-- There is a digit before or after the point, and one in the exponent if there is one. -/
def Valid (n : Numeral) : Prop :=
  (n.whole ≠ [] ∨ n.frac.getD [] ≠ []) ∧ ∀ x, n.exp = some x → x.2.2 ≠ []

def digitChar (d : Fin 10) : Char := Char.ofNat (48 + d.val)

def signText : Option Bool → List Char
  | none => []
  | some b => [if b then '-' else '+']

/-- Its text with the decimal point `dp`. -/
def text (dp : Char) (n : Numeral) : List Char :=
  signText n.sign ++ (n.whole.map digitChar ++
    ((match n.frac with | none => [] | some f => dp :: f.map digitChar) ++
      (match n.exp with | none => [] | some x => (if x.1 then 'E' else 'e') :: (signText x.2.1 ++ x.2.2.map digitChar))))

/-- The natural number with these digits. -/
def nat (ds : List (Fin 10)) : Nat := ds.foldl (fun a d => 10 * a + d.val) 0

/-- What it denotes. -/
def value (n : Numeral) : Rat :=
  let f := n.frac.getD []
  let e : Int := match n.exp with | none => 0 | some x => if x.2.1 = some true then -(nat x.2.2 : Int) else nat x.2.2
  let v := (nat (n.whole ++ f) : Rat) * (10 : Rat) ^ (e - (f.length : Int))
  if n.sign = some true then -v else v

end Numeral

/-- A decimal point that can also begin a number. -/
structure PlainPoint (dp : Char) : Prop extends GoodPoint dp where
  plus : dp ≠ '+'
  minus : dp ≠ '-'
  exp' : dp ≠ 'E'
  space : isSpace dp = false

namespace Numeral

theorem digitChar_isDigit (d : Fin 10) : isDigit (digitChar d) = true := by revert d; decide

theorem digitChar_value (d : Fin 10) : (digitChar d).toNat - 48 = d.val := by revert d; decide

theorem map_isDigit (ds : List (Fin 10)) : ∀ c ∈ ds.map digitChar, isDigit c = true := by
  intro c hc
  obtain ⟨d, _, rfl⟩ := List.mem_map.1 hc
  exact digitChar_isDigit d

theorem digitsValue_map (ds : List (Fin 10)) : digitsValue 0 (ds.map digitChar) = nat ds := by
  rw [digitsValue_eq, nat, List.foldl_map]
  congr 1
  funext a d
  rw [digitChar_value]; omega

theorem sign_take {b : Option Bool} {l : List Char} (h : ∀ c r, l = c :: r → c ≠ '+' ∧ c ≠ '-') :
    (signText b ++ l).take (signLength (signText b ++ l)) = signText b ∧ (signText b ++ l).drop (signLength (signText b ++ l)) = l := by
  cases b with
  | none =>
    rcases signLength_cases l with ⟨_, r, h'⟩ | ⟨_, r, h'⟩ | ⟨h', _⟩
    · exact absurd rfl (h _ _ h').1
    · exact absurd rfl (h _ _ h').2
    · show l.take (signLength l) = [] ∧ l.drop (signLength l) = l
      rw [h']; simp
  | some b => cases b <;> simp [signText, signLength]

/-- The exponent and what follows. -/
def expText' : Option (Bool × Option Bool × List (Fin 10)) → List Char
  | none => []
  | some x => (if x.1 then 'E' else 'e') :: (signText x.2.1 ++ x.2.2.map digitChar)

def fracText (dp : Char) : Option (List (Fin 10)) → List Char
  | none => []
  | some f => dp :: f.map digitChar

theorem text_eq (dp : Char) (n : Numeral) :
    n.text dp = signText n.sign ++ (n.whole.map digitChar ++ (fracText dp n.frac ++ expText' n.exp)) := by
  obtain ⟨s, w, f, e⟩ := n
  cases f <;> cases e <;> rfl

theorem digit_not_sign {c : Char} (h : isDigit c = true) : c ≠ '+' ∧ c ≠ '-' := by
  constructor <;> (rintro rfl; exact absurd h (by decide))

theorem expText_head {dp : Char} (hdp : PlainPoint dp) (e : Option (Bool × Option Bool × List (Fin 10))) {l : List Char} (hl : Delim l) :
    ∀ c r, expText' e ++ l = c :: r → isDigit c = false ∧ c ≠ dp := by
  intro c r h
  cases e with
  | none =>
    obtain ⟨d, t, rfl, hd⟩ := hl
    obtain ⟨rfl, _⟩ := List.cons.inj h
    rcases hd with rfl | rfl
    · exact ⟨by decide, hdp.comma.symm⟩
    · exact ⟨by decide, hdp.bracket.symm⟩
  | some x =>
    obtain ⟨b, sg, ds⟩ := x
    obtain ⟨rfl, _⟩ := List.cons.inj h
    cases b
    · exact ⟨show isDigit 'e' = false by decide, hdp.exp.symm⟩
    · exact ⟨show isDigit 'E' = false by decide, hdp.exp'.symm⟩

theorem fraction_eq {dp : Char} (f : Option (List (Fin 10))) {l : List Char} (hl : ∀ c r, l = c :: r → isDigit c = false ∧ c ≠ dp) :
    fraction dp (fracText dp f ++ l) = (f.map (·.map digitChar), l) := by
  cases f with
  | none =>
    cases l with
    | nil => rfl
    | cons c r => show fraction dp (c :: r) = _; rw [fraction, if_neg (hl c r rfl).2]; rfl
  | some ds =>
    have h := takeWhile_digits (map_isDigit ds) (fun c r e => (hl c r e).1)
    show fraction dp (dp :: (ds.map digitChar ++ l)) = _
    rw [fraction, if_pos rfl, h.1, h.2]; rfl

theorem fieldEnd_eq (e : Option (Bool × Option Bool × List (Fin 10))) {l : List Char} (hl : Delim l) (he : ∀ x, e = some x → x.2.2 ≠ [])
    (sign whole : List Char) (frac : Option (List Char)) :
    fieldEnd sign whole frac (expText' e ++ l) = ⟨sign, whole, frac, e.map (fun x => (signText x.2.1, x.2.2.map digitChar)), l⟩ := by
  cases e with
  | none =>
    obtain ⟨d, t, rfl, hd⟩ := hl
    rcases hd with rfl | rfl <;> rfl
  | some x =>
    obtain ⟨b, sg, ds⟩ := x
    have hne : ds ≠ [] := he _ rfl
    have hd := map_isDigit ds
    have h1 : ∀ c r, ds.map digitChar ++ l = c :: r → c ≠ '+' ∧ c ≠ '-' := by
      intro c r h
      cases ds with
      | nil => exact absurd rfl hne
      | cons d t => obtain ⟨rfl, _⟩ := List.cons.inj h; exact digit_not_sign (digitChar_isDigit d)
    have h2 := sign_take (b := sg) h1
    have h3 := takeWhile_digits hd hl.notDigit
    have h4 : exponent sign whole frac (signText sg ++ (ds.map digitChar ++ l)) =
        ⟨sign, whole, frac, some (signText sg, ds.map digitChar), l⟩ := by
      unfold exponent
      rw [h2.1, h2.2, h3.1, h3.2]
    have e0 : expText' (some (b, sg, ds)) ++ l = (if b then 'E' else 'e') :: (signText sg ++ (ds.map digitChar ++ l)) := by
      show (if b then 'E' else 'e') :: ((signText sg ++ ds.map digitChar) ++ l) = _
      rw [List.append_assoc]
    rw [e0]
    cases b
    · exact h4
    · exact h4

theorem field_text {dp : Char} (hdp : PlainPoint dp) {n : Numeral} (hv : n.Valid) {l : List Char} (hl : Delim l) :
    field dp (n.text dp ++ l) = ⟨signText n.sign, n.whole.map digitChar, n.frac.map (·.map digitChar),
      n.exp.map (fun x => (signText x.2.1, x.2.2.map digitChar)), l⟩ := by
  rw [text_eq]
  obtain ⟨sg, w, f, e⟩ := n
  obtain ⟨hv1, hv2⟩ := hv
  simp only at hv1 hv2 ⊢
  have hE := expText_head hdp e hl
  have hF : ∀ c r, fracText dp f ++ (expText' e ++ l) = c :: r → isDigit c = false := by
    intro c r h
    cases f with
    | none => exact (hE c r h).1
    | some ds => obtain ⟨rfl, _⟩ := List.cons.inj h; exact hdp.digit
  have hW : ∀ c r, w.map digitChar ++ (fracText dp f ++ (expText' e ++ l)) = c :: r → c ≠ '+' ∧ c ≠ '-' := by
    intro c r h
    cases w with
    | nil =>
      cases f with
      | none => exact absurd (hv1.resolve_left (fun h => h rfl)) (fun h => h rfl)
      | some ds => obtain ⟨rfl, _⟩ := List.cons.inj h; exact ⟨hdp.plus, hdp.minus⟩
    | cons d t => obtain ⟨rfl, _⟩ := List.cons.inj h; exact digit_not_sign (digitChar_isDigit d)
  have h1 := sign_take (b := sg) hW
  have h2 := takeWhile_digits (map_isDigit w) hF
  have h3 := fraction_eq f hE
  have e0 : signText sg ++ (w.map digitChar ++ (fracText dp f ++ expText' e)) ++ l =
      signText sg ++ (w.map digitChar ++ (fracText dp f ++ (expText' e ++ l))) := by simp only [List.append_assoc]
  rw [e0]
  unfold field
  simp only [h1.1, h1.2, h2.1, h2.2, h3]
  have hne : ((w.map digitChar).isEmpty && ((f.map (·.map digitChar)).getD []).isEmpty) = false := by
    cases w with
    | cons _ _ => rfl
    | nil =>
      cases f with
      | none => exact absurd (hv1.resolve_left (fun h => h rfl)) (fun h => h rfl)
      | some ds =>
        cases ds with
        | nil => exact absurd (hv1.resolve_left (fun h => h rfl)) (fun h => h rfl)
        | cons _ _ => rfl
  rw [hne]
  simp only [Bool.false_eq_true, if_false]
  exact fieldEnd_eq e hl hv2 _ _ _

theorem field_value {n : Numeral} (hv : n.Valid) (l : List Char) :
    (Field.mk (signText n.sign) (n.whole.map digitChar) (n.frac.map (·.map digitChar))
      (n.exp.map (fun x => (signText x.2.1, x.2.2.map digitChar))) l).value = some n.value := by
  obtain ⟨sg, w, f, e⟩ := n
  obtain ⟨hv1, hv2⟩ := hv
  simp only at hv1 hv2 ⊢
  have hf : (f.map (·.map digitChar)).getD [] = (f.getD []).map digitChar := by cases f <;> rfl
  have hne : ((w.map digitChar).isEmpty && ((f.getD []).map digitChar).isEmpty) = false := by
    rcases hv1 with h | h
    · cases w with
      | nil => exact absurd rfl h
      | cons _ _ => rfl
    · cases hg : f.getD [] with
      | nil => exact absurd hg h
      | cons _ _ => simp
  have hsg : (signText sg = ['-']) ↔ sg = some true := by
    cases sg with
    | none => simp [signText]
    | some b => cases b <;> simp [signText]
  unfold Field.value
  simp only [hf, hne, Bool.false_eq_true, if_false, ← List.map_append, digitsValue_map, List.length_map, hsg]
  cases e with
  | none => rfl
  | some x =>
    obtain ⟨b, s, ds⟩ := x
    have : ds ≠ [] := hv2 _ rfl
    have hemp : (ds.map digitChar).isEmpty = false := by cases ds with | nil => exact absurd rfl this | cons _ _ => rfl
    have hs : (signText s = ['-']) ↔ s = some true := by
      cases s with
      | none => simp [signText]
      | some b => cases b <;> simp [signText]
    simp only [Option.map_some, hemp, Bool.false_eq_true, if_false, digitsValue_map, hs]
    rfl

theorem text_begins {dp : Char} (hdp : PlainPoint dp) {n : Numeral} (hv : n.Valid) : Begins (n.text dp) := by
  rw [text_eq]
  obtain ⟨sg, w, f, e⟩ := n
  obtain ⟨hv1, _⟩ := hv
  simp only at hv1 ⊢
  have dig : ∀ d : Fin 10, isSpace (digitChar d) = false ∧ digitChar d ≠ ']' := by decide
  cases sg with
  | some b => exact ⟨_, _, rfl, by cases b <;> decide, by cases b <;> decide⟩
  | none =>
    cases w with
    | cons d t => exact ⟨_, _, rfl, (dig d).1, (dig d).2⟩
    | nil =>
      cases f with
      | none => exact absurd (hv1.resolve_left (fun h => h rfl)) (fun h => h rfl)
      | some ds => exact ⟨_, _, rfl, hdp.space, hdp.bracket⟩

/-- Reading a numeral stores the nearest number of the format. -/
theorem reads {dp : Char} (hdp : PlainPoint dp) {n : Numeral} (hv : n.Valid) (p : Nat) :
    ReadsAs (fun s => some (.ok (read dp p s 0))) (n.text dp) (round p n.value) := by
  intro s d r hs hd hr
  have hl : Delim (d :: r) := ⟨d, r, rfl, hd⟩
  have h1 := field_text hdp hv hl
  have h2 := field_value hv (d :: r)
  obtain ⟨c, t, ht, hc, _⟩ := text_begins hdp hv
  have hr' : s.rest = [] ++ c :: (t ++ d :: r) := by rw [hr, ht]; rfl
  have hsent := sentry_split hs blank_nil hc hr'
  show some (Res.ok (read dp p s 0)) = _
  congr 2
  unfold read
  rw [hsent]
  simp only [if_true]
  have hrest : (s.adv [] (c :: (t ++ d :: r))).rest = n.text dp ++ d :: r := by rw [ht]; rfl
  unfold extract
  rw [hrest, h1]
  simp only [h2]
  congr 1
  have heof := hs.eof
  have htake : (n.text dp ++ d :: r).take ((n.text dp ++ d :: r).length - (d :: r).length) = n.text dp := by
    rw [List.length_append, Nat.add_sub_cancel, List.take_left']; rfl
  rw [htake]
  simp [adv]

end Numeral

/-- C120: a vector of numerals written in any of the usual ways is read as the numbers of the format nearest to them; exactly the text of the
vector is consumed. -/
theorem C120_numerals {dp : Char} (hdp : PlainPoint dp) (p : Nat) (ns : List Numeral) (hv : ∀ n ∈ ns, n.Valid) (v : List Rat) (fuel : Nat)
    (hf : ns.length + 2 ≤ fuel) (rest : List Char) :
    ∃ s, readVector fuel (fun s => read dp p s 0) (IStream.ofList ('[' :: (sepText [','] (ns.map (Numeral.text dp)) ++ ']' :: rest))) v
        = some (.ok (ns.map (fun n => round p n.value), s)) ∧ s.rest = rest ∧ s.good = true := by
  unfold readVector
  rw [← C82_same (fun s => read dp p s 0) fuel _ v]
  have hs := plain_ofList ('[' :: (sepText [','] (ns.map (Numeral.text dp)) ++ ']' :: rest))
  cases ns with
  | nil =>
    have h1 := readChar_split hs (b := []) (x := '[') (r := ']' :: rest) blank_nil (by decide) rfl none
    have hp1 := adv_plain hs ['['] (']' :: rest)
    have h2 := readChar_split hp1 (b := []) (x := ']') (r := rest) blank_nil (by decide) rfl (some '[')
    simp only [List.nil_append, adv_adv] at h1 h2
    obtain ⟨fuel, rfl⟩ : ∃ k, fuel = k + 1 := ⟨fuel - 1, by omega⟩
    refine ⟨_, by simp only [readSequenceX, h1, h2]; simp [readLoopX]; rfl, rfl, rfl⟩
  | cons c cs =>
    have hb : Begins (sepText [','] ((c :: cs).map (Numeral.text dp))) := begins_sep (Numeral.text_begins hdp (hv c List.mem_cons_self))
    have h1 := sequenceX_start (rd := fun s => some (.ok (read dp p s 0))) hs hb (rest := ']' :: rest) (by simp [IStream.ofList]) fuel
    have h2 := loopX_vals (rd := fun s => some (.ok (read dp p s 0))) (txt := Numeral.text dp) (val := fun n => round p n.value) c cs
      (fun y hy => Numeral.reads hdp (hv y hy) p) fuel []
      ((IStream.ofList ('[' :: (sepText [','] ((c :: cs).map (Numeral.text dp)) ++ ']' :: rest))).adv ['[']
        (sepText [','] ((c :: cs).map (Numeral.text dp)) ++ ']' :: rest)) rest (by simp at hf; omega) (adv_plain hs _ _) rfl
    refine ⟨_, by rw [h1, h2]; rfl, rfl, ?_⟩
    rfl

/-- C120: where there is no number, reading one fails, stores 0 and consumes nothing but a sign; so `e5` is no number. -/
theorem C120_noNumber (dp : Char) (p : Nat) (sg : Option Bool) (c : Char) (r : List Char)
    (hc : isSpace c = false ∧ isDigit c = false ∧ c ≠ '+' ∧ c ≠ '-' ∧ c ≠ dp) (x : Rat) :
    let res := read dp p (IStream.ofList (Numeral.signText sg ++ c :: r)) x
    res.1 = 0 ∧ res.2.failed = true ∧ res.2.rest = c :: r := by
  have hs := plain_ofList (Numeral.signText sg ++ c :: r)
  obtain ⟨h1, h2, h3, h4, h5⟩ := hc
  have hb : ∃ c' t, Numeral.signText sg ++ c :: r = c' :: t ∧ isSpace c' = false := by
    cases sg with
    | none => exact ⟨c, r, rfl, h1⟩
    | some b => exact ⟨_, _, rfl, by cases b <;> decide⟩
  obtain ⟨c', t, ht, hc'⟩ := hb
  have hsent := sentry_split hs blank_nil hc' (by show Numeral.signText sg ++ c :: r = [] ++ c' :: t; rw [ht]; rfl)
  have hst := Numeral.sign_take (b := sg) (l := c :: r) (by intro d q h; obtain ⟨rfl, _⟩ := List.cons.inj h; exact ⟨h3, h4⟩)
  have hf : field dp (Numeral.signText sg ++ c :: r) = ⟨Numeral.signText sg, [], none, none, c :: r⟩ := by
    unfold field
    simp only [hst.1, hst.2]
    have e1 : (c :: r).takeWhile isDigit = [] := by simp [h2]
    have e2 : (c :: r).dropWhile isDigit = c :: r := by simp [h2]
    rw [e1, e2, fraction, if_neg h5]
    rfl
  intro res
  have hres : res = read dp p (IStream.ofList (Numeral.signText sg ++ c :: r)) x := rfl
  clear_value res
  unfold read at hres
  rw [hsent] at hres
  simp only [if_true] at hres
  unfold extract at hres
  have hrest : ((IStream.ofList (Numeral.signText sg ++ c :: r)).adv [] (c' :: t)).rest = Numeral.signText sg ++ c :: r := by rw [ht]; rfl
  rw [hrest, hf] at hres
  rw [hres]
  refine ⟨rfl, ?_, rfl⟩
  simp [Field.value, IStream.failed]

theorem plainPoint_dot : PlainPoint '.' := ⟨goodPoint_dot, by decide, by decide, by decide, by decide⟩

/-- `.5`, `-1E2`, `+3.e-1` and `007`. -/
def byHand : List Numeral := [⟨none, [], some [5], none⟩, ⟨some true, [1], none, some (true, none, [2])⟩,
  ⟨some false, [3], some [], some (false, some true, [1])⟩, ⟨none, [0, 0, 7], none, none⟩]

example : '[' :: (sepText [','] (byHand.map (Numeral.text '.')) ++ [']']) = "[.5,-1E2,+3.e-1,007]".toList ∧
    byHand.map (Numeral.value) = [1 / 2, -100, 3 / 10, 7] := by decide +kernel
example : ∀ n ∈ byHand, n.Valid := by
  intro n hn
  simp only [byHand, List.mem_cons, List.not_mem_nil, or_false] at hn
  rcases hn with rfl | rfl | rfl | rfl <;> exact ⟨by simp, by intro x hx; first | cases hx; done | (cases hx; simp)⟩

example : (read '.' 53 (IStream.ofList "e5".toList) 7).1 = 0 ∧ (read '.' 53 (IStream.ofList "-e5".toList) 7).2.rest = "e5".toList := by decide +kernel

end Helper.Double
