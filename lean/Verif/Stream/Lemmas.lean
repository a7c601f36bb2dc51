import Verif.Seq.Spec
set_option linter.unusedSectionVars false
namespace Helper
open Seq (Blank)

theorem blank_nil : Blank [] := by intro c hc; simp at hc

theorem blank_takeWhile (l : List Char) : Blank (l.takeWhile isSpace) := by
  induction l with
  | nil => exact blank_nil
  | cons x t ih =>
    by_cases h : isSpace x = true
    · simp only [List.takeWhile_cons, h, if_true]
      intro c hc
      rcases List.mem_cons.1 hc with rfl | hc
      · exact h
      · exact ih c hc
    · simp only [List.takeWhile_cons, h]; exact blank_nil

theorem takeWhile_blank_append {b : List Char} (hb : Blank b) {x : Char} (hx : isSpace x = false)
    (r : List Char) : (b ++ x :: r).takeWhile isSpace = b ∧ (b ++ x :: r).dropWhile isSpace = x :: r := by
  induction b with
  | nil => simp [hx]
  | cons c b ih =>
    have hc : isSpace c = true := hb c (by simp)
    have := ih fun d hd => hb d (List.mem_cons_of_mem _ hd)
    simp [hc, this]

theorem takeWhile_blank {b : List Char} (hb : Blank b) :
    b.takeWhile isSpace = b ∧ b.dropWhile isSpace = [] := by
  induction b with
  | nil => simp
  | cons c b ih =>
    have hc : isSpace c = true := hb c (by simp)
    have := ih fun d hd => hb d (List.mem_cons_of_mem _ hd)
    simp [hc, this]

/-- Every text is blank or has a first non-blank character. -/
theorem blank_or_split (l : List Char) :
    Blank l ∨ ∃ b x r, Blank b ∧ isSpace x = false ∧ l = b ++ x :: r := by
  induction l with
  | nil => exact .inl blank_nil
  | cons c t ih =>
    by_cases hc : isSpace c = true
    · rcases ih with h | ⟨b, x, r, hb, hx, rfl⟩
      · left; intro d hd
        rcases List.mem_cons.1 hd with rfl | hd
        · exact hc
        · exact h d hd
      · refine .inr ⟨c :: b, x, r, ?_, hx, rfl⟩
        intro d hd
        rcases List.mem_cons.1 hd with rfl | hd
        · exact hc
        · exact hb d hd
    · exact .inr ⟨[], c, t, blank_nil, by simpa using hc, rfl⟩

/-- The split is unique. -/
theorem split_unique {b b' : List Char} {x x' : Char} {r r' : List Char} (hb : Blank b)
    (hb' : Blank b') (hx : isSpace x = false) (hx' : isSpace x' = false)
    (h : b ++ x :: r = b' ++ x' :: r') : b = b' ∧ x = x' ∧ r = r' := by
  have h1 := takeWhile_blank_append hb hx r
  have h2 := takeWhile_blank_append hb' hx' r'
  rw [h] at h1
  rw [h1.1] at h2
  rw [h1.2] at h2
  simp only [List.cons.injEq] at h2
  exact ⟨h2.1, h2.2.1, h2.2.2⟩

theorem not_blank_split {b : List Char} {x : Char} {r : List Char} (hx : isSpace x = false) :
    ¬ Blank (b ++ x :: r) := fun h => by
  have := h x (by simp); rw [this] at hx; simp at hx

namespace IStream

/-- A good stream that skips blanks. -/
structure Plain (s : IStream) : Prop where
  eof : s.eof = false
  fail : s.fail = false
  bad : s.bad = false
  skip : s.skipws = true

theorem Plain.good {s : IStream} (h : s.Plain) : s.good = true := by
  simp [IStream.good, h.eof, h.fail, h.bad]

/-- `s` after extracting the text `t`. -/
def adv (s : IStream) (t rest : List Char) : IStream :=
  { s with before := t.reverse ++ s.before, rest := rest }

theorem adv_plain {s : IStream} (h : s.Plain) (t r : List Char) : (s.adv t r).Plain :=
  ⟨h.eof, h.fail, h.bad, h.skip⟩

theorem sentry_split {s : IStream} (h : s.Plain) {b : List Char} {x : Char} {r : List Char}
    (hb : Blank b) (hx : isSpace x = false) (hr : s.rest = b ++ x :: r) :
    s.sentry false = (true, s.adv b (x :: r)) := by
  have := takeWhile_blank_append hb hx r
  simp [sentry, h.good, h.skip, skipBlanks, hr, this, adv]

theorem sentry_blank {s : IStream} (h : s.Plain) (hb : Blank s.rest) :
    s.sentry false = (false, { s.adv s.rest [] with eof := true, fail := true }) := by
  have := takeWhile_blank hb
  simp [sentry, h.good, h.skip, skipBlanks, this, adv]

theorem readChar_split {s : IStream} (h : s.Plain) {b : List Char} {x : Char} {r : List Char}
    (hb : Blank b) (hx : isSpace x = false) (hr : s.rest = b ++ x :: r) (c : Option Char) :
    s.readChar c = (some x, s.adv (b ++ [x]) r) := by
  unfold readChar
  rw [sentry_split h hb hx hr]
  simp [extract, adv]

theorem readChar_blank {s : IStream} (h : s.Plain) (hb : Blank s.rest) (c : Option Char) :
    s.readChar c = (c, { s.adv s.rest [] with eof := true, fail := true }) := by
  unfold readChar
  rw [sentry_blank h hb]
  simp

theorem readChar_notGood {s : IStream} (h : s.good = false) (c : Option Char) :
    s.readChar c = (c, { s with fail := true }) := by
  simp [readChar, sentry, h]

theorem putback_adv {s : IStream} (h : s.Plain) (b : List Char) (x : Char) (r : List Char) :
    (s.adv (b ++ [x]) r).putback x = s.adv b (x :: r) := by
  simp [putback, sentry, adv, IStream.good, h.fail, h.bad, h.eof]

theorem putback_failed {s : IStream} (h : s.fail = true) (x : Char) :
    s.putback x = { s with eof := false } := by
  simp [putback, sentry, IStream.good, h]

/-! ## Integers -/

theorem isDigit_iff {c : Char} : isDigit c = true ↔ '0' ≤ c ∧ c ≤ '9' := by
  unfold isDigit
  simp only [Bool.and_eq_true, decide_eq_true_eq]
  rfl

theorem digitsValue_eq (acc : Nat) (ds : List Char) :
    digitsValue acc ds = ds.foldl (fun a c => a * 10 + (c.toNat - 48)) acc := by
  induction ds generalizing acc with
  | nil => rfl
  | cons c t ih =>
    have h : digitsValue acc (c :: t) = digitsValue (acc * 10 + (c.toNat - 48)) t := rfl
    rw [h, List.foldl_cons, ih]

theorem digitsValue_numeral (ds : List Char) : digitsValue 0 ds = Seq.numeral ds :=
  digitsValue_eq 0 ds

theorem takeWhile_digits {ds rest : List Char} (hds : ∀ c ∈ ds, isDigit c = true)
    (hr : ∀ c r, rest = c :: r → isDigit c = false) :
    (ds ++ rest).takeWhile isDigit = ds ∧ (ds ++ rest).dropWhile isDigit = rest := by
  induction ds with
  | nil =>
    cases rest with
    | nil => simp
    | cons c r => simp [hr c r rfl]
  | cons c t ih =>
    have hc := hds c (by simp)
    have := ih fun d hd => hds d (List.mem_cons_of_mem _ hd)
    simp [hc, this]

theorem mem_takeWhile_imp {p : Char → Bool} {l : List Char} : ∀ c ∈ l.takeWhile p, p c = true := by
  induction l with
  | nil => simp
  | cons x t ih =>
    intro c hc
    by_cases hx : p x = true
    · rw [List.takeWhile_cons, if_pos hx] at hc
      rcases List.mem_cons.1 hc with rfl | hc
      · exact hx
      · exact ih c hc
    · rw [List.takeWhile_cons, if_neg hx] at hc; simp at hc

theorem dropWhile_head {p : Char → Bool} {l : List Char} :
    ∀ c r, l.dropWhile p = c :: r → p c = false := by
  induction l with
  | nil => simp
  | cons x t ih =>
    intro c r h
    by_cases hx : p x = true
    · rw [List.dropWhile_cons, if_pos hx] at h; exact ih c r h
    · rw [List.dropWhile_cons, if_neg hx] at h
      simp only [List.cons.injEq] at h
      rw [← h.1]; simpa using hx

theorem isDigit_not_space {c : Char} (h : isDigit c = true) : isSpace c = false := by
  rw [isDigit_iff] at h
  unfold isSpace
  have key : ∀ d : Char, d < '0' → (c == d) = false := by
    intro d hd
    rw [beq_eq_false_iff_ne]
    rintro rfl
    exact absurd h.1 (Char.not_le.2 hd)
  rw [key ' ' (by decide), key '\t' (by decide), key '\n' (by decide), key '\x0b' (by decide),
    key '\x0c' (by decide), key '\r' (by decide)]
  rfl

theorem signLength_cases (l : List Char) :
    (signLength l = 1 ∧ ∃ r, l = '+' :: r) ∨ (signLength l = 1 ∧ ∃ r, l = '-' :: r) ∨
    (signLength l = 0 ∧ ∀ c r, l = c :: r → c ≠ '+' ∧ c ≠ '-') := by
  unfold signLength
  split
  · exact .inl ⟨rfl, _, rfl⟩
  · exact .inr (.inl ⟨rfl, _, rfl⟩)
  · rename_i h1 h2
    refine .inr (.inr ⟨rfl, fun c r h => ⟨?_, ?_⟩⟩)
    · rintro rfl; exact h1 r h
    · rintro rfl; exact h2 r h

/-- What `is >> x` does on a good stream: it succeeds exactly on an `IntItem`. -/
theorem readInt_ok {lo hi : Int} {s : IStream} (h : s.Plain) {x : Int} {rest : List Char} (x0 : Int)
    (hi' : Seq.IntItem lo hi s.rest x rest) :
    ∃ t, s.rest = t ++ rest ∧
      s.readInt lo hi x0 = (x, { s.adv t rest with eof := rest.isEmpty }) := by
  obtain ⟨b, sign, ds, hb, hsign, hne, hds, hrest, hinp, hx, hlo, hhi⟩ := hi'
  have hds' : ∀ c ∈ ds, isDigit c = true := fun c hc => isDigit_iff.2 (hds c hc)
  have hrest' : ∀ c r, rest = c :: r → isDigit c = false := by
    intro c r hr
    cases hd : isDigit c
    · rfl
    · exact absurd (isDigit_iff.1 hd) (hrest c r hr)
  obtain ⟨d, ds', rfl⟩ := List.exists_cons_of_ne_nil hne
  have hd0 : isDigit d = true := hds' d (by simp)
  have htw := takeWhile_digits hds' hrest'
  refine ⟨b ++ sign ++ (d :: ds'), by rw [hinp], ?_⟩
  have hhead : ∃ y r, isSpace y = false ∧ sign ++ (d :: ds') ++ rest = y :: r := by
    rcases hsign with rfl | rfl | rfl
    · exact ⟨d, ds' ++ rest, isDigit_not_space hd0, rfl⟩
    · exact ⟨'+', _, by decide, rfl⟩
    · exact ⟨'-', _, by decide, rfl⟩
  obtain ⟨y, r, hy, hyr⟩ := hhead
  have hsplit : s.rest = b ++ y :: r := by rw [hinp, ← hyr]; simp
  unfold readInt
  rw [sentry_split h hb hy hsplit]
  simp only [if_true]
  have hrest2 : (s.adv b (y :: r)).rest = sign ++ (d :: ds') ++ rest := by rw [hyr]; rfl
  have hsl : signLength (sign ++ (d :: ds') ++ rest) = sign.length := by
    rcases hsign with rfl | rfl | rfl
    · rcases signLength_cases ([] ++ (d :: ds') ++ rest) with ⟨_, q, hq⟩ | ⟨_, q, hq⟩ | ⟨h0, _⟩
      · simp at hq; rw [hq.1] at hd0; exact absurd hd0 (by decide)
      · simp at hq; rw [hq.1] at hd0; exact absurd hd0 (by decide)
      · exact h0
    · rfl
    · rfl
  have htake : (sign ++ (d :: ds') ++ rest).take sign.length = sign := by simp
  have hdrop : (sign ++ (d :: ds') ++ rest).drop sign.length = (d :: ds') ++ rest := by simp
  simp only [extractInt, hrest2, hsl, htake, hdrop, htw.1, htw.2]
  have hval : digitsValue 0 (d :: ds') = Seq.numeral (d :: ds') := digitsValue_numeral _
  rw [hval, ← hx]
  rw [if_neg (by simp), if_neg (by omega), if_neg (by omega)]
  simp [adv, h.eof]

/-- A failed extraction, or an extraction on a stream that is not good, leaves a failed stream. -/
theorem readInt_item {lo hi : Int} {s : IStream} (h : s.Plain) (x0 : Int)
    (hf : (s.readInt lo hi x0).2.failed = false) :
    Seq.IntItem lo hi s.rest (s.readInt lo hi x0).1 (s.readInt lo hi x0).2.rest := by
  rcases blank_or_split s.rest with hb | ⟨b, y, r, hb, hy, hr⟩
  · unfold readInt at hf
    rw [sentry_blank h hb] at hf
    simp [failed] at hf
  · revert hf
    unfold readInt
    rw [sentry_split h hb hy hr]
    simp only [if_true]
    generalize hs' : s.adv b (y :: r) = s'
    have hs'r : s'.rest = y :: r := by rw [← hs']; rfl
    intro hf
    unfold extractInt at hf ⊢
    simp only at hf ⊢
    generalize hn : signLength s'.rest = n at hf ⊢
    have hsign : s'.rest.take n = [] ∨ s'.rest.take n = ['+'] ∨ s'.rest.take n = ['-'] := by
      rcases signLength_cases s'.rest with ⟨h1, q, hq⟩ | ⟨h1, q, hq⟩ | ⟨h1, _⟩
      · right; left; rw [← hn, h1, hq]; rfl
      · right; right; rw [← hn, h1, hq]; rfl
      · left; rw [← hn, h1]; rfl
    have hdigs := mem_takeWhile_imp (p := isDigit) (l := s'.rest.drop n)
    have hdrop := dropWhile_head (p := isDigit) (l := s'.rest.drop n)
    have happ : (s'.rest.drop n).takeWhile isDigit ++ (s'.rest.drop n).dropWhile isDigit =
        s'.rest.drop n := List.takeWhile_append_dropWhile
    generalize (s'.rest.drop n).takeWhile isDigit = ds at *
    generalize (s'.rest.drop n).dropWhile isDigit = tl at *
    rw [digitsValue_numeral] at hf ⊢
    by_cases hde : ds.isEmpty = true
    · rw [if_pos hde] at hf; simp [failed] at hf
    · rw [if_neg hde] at hf ⊢
      generalize hv : (if List.take n s'.rest = ['-'] then -(Seq.numeral ds : Int)
        else (Seq.numeral ds : Int)) = v at hf ⊢
      by_cases hlo : v < lo
      · rw [if_pos hlo] at hf; simp [failed] at hf
      · rw [if_neg hlo] at hf ⊢
        by_cases hhi : hi < v
        · rw [if_pos hhi] at hf; simp [failed] at hf
        · rw [if_neg hhi]
          refine ⟨b, s'.rest.take n, ds, hb, hsign, by simpa using hde,
            fun c hc => isDigit_iff.1 (hdigs c hc), ?_, ?_, hv.symm, by simp only; omega,
            by simp only; omega⟩
          · intro c q hq hc
            have := hdrop c q hq
            rw [isDigit_iff.2 hc] at this; simp at this
          · rw [hr, ← hs'r, List.append_assoc, List.append_assoc, happ, List.take_append_drop]

theorem readInt_notGood {lo hi : Int} {s : IStream} (h : s.good = false) (x0 : Int) :
    (s.readInt lo hi x0).2.failed = true := by
  simp [readInt, sentry, h, failed]

/-! ## Booleans -/

theorem readBool_eq {s : IStream} (h : s.Plain) (hba : s.boolalpha = false) (b0 : Bool) :
    s.readBool b0 =
      let r := s.readInt longMin longMax (if b0 then 1 else 0)
      if r.2.fail then (decide (r.1 ≠ 0), r.2)
      else if r.1 = 0 then (false, r.2)
      else if r.1 = 1 then (true, r.2) else (true, { r.2 with fail := true }) := by
  unfold readBool readInt
  rcases blank_or_split s.rest with hb | ⟨b, y, r, hb, hy, hr⟩
  · rw [sentry_blank h hb]; cases b0 <;> simp
  · rw [sentry_split h hb hy hr]
    simp only [if_true, extractBool]
    have : (s.adv b (y :: r)).boolalpha = false := hba
    rw [this]; simp

theorem intItem_mono {lo hi lo' hi' : Int} (h1 : lo' ≤ lo) (h2 : hi ≤ hi') {inp rest : List Char}
    {x : Int} (h : Seq.IntItem lo hi inp x rest) : Seq.IntItem lo' hi' inp x rest := by
  obtain ⟨b, sign, ds, a1, a2, a3, a4, a5, a6, a7, a8, a9⟩ := h
  exact ⟨b, sign, ds, a1, a2, a3, a4, a5, a6, a7, by omega, by omega⟩

theorem readBool_ok {s : IStream} (h : s.Plain) (hba : s.boolalpha = false) {x : Bool}
    {rest : List Char} (b0 : Bool) (hi : Seq.BitItem s.rest x rest) :
    ∃ t, s.rest = t ++ rest ∧ s.readBool b0 = (x, { s.adv t rest with eof := rest.isEmpty }) := by
  obtain ⟨t, ht, hr⟩ := readInt_ok h (if b0 then 1 else 0)
    (intItem_mono (lo' := longMin) (hi' := longMax) (by decide) (by decide) hi)
  refine ⟨t, ht, ?_⟩
  rw [readBool_eq h hba]
  simp only [hr]
  have : (s.adv t rest).fail = false := h.fail
  simp only [this]
  cases x <;> simp

theorem readBool_item {s : IStream} (h : s.Plain) (hba : s.boolalpha = false) (b0 : Bool)
    (hf : (s.readBool b0).2.failed = false) :
    Seq.BitItem s.rest (s.readBool b0).1 (s.readBool b0).2.rest := by
  rw [readBool_eq h hba] at hf ⊢
  have hit := readInt_item (lo := longMin) (hi := longMax) h (if b0 then 1 else 0)
  generalize s.readInt longMin longMax (if b0 then 1 else 0) = r at *
  simp only at hf ⊢
  by_cases hfail : r.2.fail = true
  · rw [if_pos hfail] at hf; simp [failed, hfail] at hf
  · rw [if_neg hfail] at hf ⊢
    by_cases h0 : r.1 = 0
    · rw [if_pos h0] at hf ⊢
      obtain ⟨b, sign, ds, a1, a2, a3, a4, a5, a6, a7, a8, a9⟩ := hit hf
      exact ⟨b, sign, ds, a1, a2, a3, a4, a5, a6, by rw [← a7, h0]; rfl, by simp, by simp⟩
    · rw [if_neg h0] at hf ⊢
      by_cases h1 : r.1 = 1
      · rw [if_pos h1] at hf ⊢
        obtain ⟨b, sign, ds, a1, a2, a3, a4, a5, a6, a7, a8, a9⟩ := hit hf
        exact ⟨b, sign, ds, a1, a2, a3, a4, a5, a6, by rw [← a7, h1]; rfl, by simp, by simp⟩
      · rw [if_neg h1] at hf
        simp [failed] at hf

theorem readBool_notGood {s : IStream} (h : s.good = false) (b0 : Bool) :
    (s.readBool b0).2.failed = true := by
  simp [readBool, sentry, h, failed]

end IStream
end Helper
