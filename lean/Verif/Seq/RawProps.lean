import Verif.Seq.Raw
import Verif.Seq.EndsProps
set_option linter.unusedSectionVars false
/-!
# Property C136: reading lists and words from streams with `std::noskipws`
-/
namespace Helper.Seq.Raw
open IStream OStream

variable {T L : Type}

/-- Specification: `b` is what is read without skipping blanks where `a` is what is read with skipping them, from `s`. -/
structure NoSkip (s : IStream) (a b : Option (Res (T × IStream))) : Prop where
  /-- Where no blank is consumed the same is read. -/
  same : ∀ x s', a = some (.ok (x, s')) → NoBlank (took s s') → b = some (.ok (x, raw s'))
  /-- Where a blank is consumed an exception is thrown. -/
  blank : ∀ x s', a = some (.ok (x, s')) → ¬ NoBlank (took s s') → b = some (.exn .iosFailure)
  /-- What is refused is refused. -/
  exn : ∀ e, a = some (.exn e) → b = some (.exn .iosFailure)
  /-- Nothing else is read. -/
  back : ∀ x s'', b = some (.ok (x, s'')) → ∃ s', a = some (.ok (x, s')) ∧ NoBlank (took s s') ∧ s'' = raw s'
  /-- Nothing else is undefined. -/
  undef : ∀ u, b = some (.ub u) → a = some (.ub u)
  /-- Reading ends. -/
  ends : b ≠ none

theorem noSkip_of_sim {s : IStream} {a b : Option (Res (T × IStream))} (h : Sim Throws s a b) (hn : a ≠ none)
    (hok : ∀ x s', a = some (.ok (x, s')) → s'.failed = false) : NoSkip s a b := by
  cases a with
  | none => exact absurd rfl hn
  | some r =>
    cases r with
    | abort => exact h.elim
    | exn e =>
      have h : b = some (.exn .iosFailure) := h
      subst h
      exact ⟨by simp, by simp, by simp, by simp, by simp, by simp⟩
    | ub u =>
      rcases (show b = some (.ub u) ∨ b = some (.exn .iosFailure) from h) with rfl | rfl
      · exact ⟨by simp, by simp, by simp, by simp, by simp, by simp⟩
      · exact ⟨by simp, by simp, by simp, by simp, by simp, by simp⟩
    | ok p =>
      obtain ⟨x, s'⟩ := p
      obtain ⟨_, _, h | h⟩ := h.2 (hok x s' rfl)
      · obtain ⟨h1, rfl⟩ := h
        refine ⟨fun y t hy _ => by cases hy; rfl, fun y t hy hb => ?_, by simp, fun y t hy => ?_, by simp, by simp⟩
        · cases hy; exact absurd h1 hb
        · cases hy; exact ⟨s', rfl, h1, rfl⟩
      · obtain ⟨h1, h2⟩ := h
        have h2 : b = some (.exn .iosFailure) := h2
        subst h2
        refine ⟨fun y t hy hb => ?_, by simp, by simp, by simp, by simp, by simp⟩
        cases hy; exact absurd hb h1

theorem keepsFail_item (ex : IStream → T × IStream) (x : T) : Mask.KeepsFail (fun s => readItem ex s x) :=
  Mask.keepsFail_sentry fun s h => by simp [readItem, sentry, h]

theorem item_length {ex : IStream → T × IStream} (h : Extracts ex) (x : T) (s : IStream) : (readItem ex s x).2.rest.length ≤ s.rest.length := by
  have h1 := sentry_length s false
  unfold readItem
  simp only
  split
  · obtain ⟨t, ht, _⟩ := h.takes (s.sentry false).2
    have := congrArg List.length ht
    simp at this
    omega
  · exact h1

theorem nest_notGood {rd : IStream → Option (Res (L × IStream))} (fuel d : Nat) {s : IStream} (hs : s.good = false) :
    readNest fuel rd (d + 1) s = some (.ub .indeterminate) := by
  rw [readNest, readSequenceX, readChar_notGood hs]

/-- **C136**: nested lists of items that are extracted by one operation which takes no blanks (`extracts_int`, `extracts_bool`). The stream
skips blanks, and may be in any state otherwise. -/
theorem C136_lists {ex : IStream → L × IStream} (h : Extracts ex) (x0 : L) (d : Nat) (s : IStream) (hs : s.skipws = true) (fuel k : Nat)
    (hf : s.rest.length + 2 ≤ fuel) (hk : fuel + 2 ≤ k) :
    NoSkip s (readNest fuel (fun s => some (.ok (readItem ex s x0))) (d + 1) s) (readNest k (fun s => some (.ok (readItem ex s x0))) (d + 1) (raw s)) := by
  have hn := follows_nest (follows_item h x0) (noStart_item h x0) hk d
  refine noSkip_of_sim (sequence_raw hn.1 hn.2 (by decide) (by decide) (by decide) (by decide) (by decide) fuel k hk s hs) ?_ fun x s' hx => ?_
  · obtain ⟨r, h1, _⟩ := C135_lists (item_length h x0) (d + 1) s fuel hf
    exact fun h2 => by rw [show readNest fuel _ (d + 1) s = _ from h2] at h1; cases h1
  · cases hg : s.good with
    | false => rw [nest_notGood fuel d hg] at hx; cases hx
    | true =>
      have := ((Mask.C134_lists .none (keepsFail_item ex x0) fuel d s hg).1 x s' hx).1
      simp [IStream.good] at this
      simp [IStream.failed, this.1.2, this.2]

/-- **C136**, lists of integers. -/
theorem C136_ints (lo hi : Int) (d : Nat) (s : IStream) (hs : s.skipws = true) (fuel k : Nat) (hf : s.rest.length + 2 ≤ fuel) (hk : fuel + 2 ≤ k) :
    NoSkip s (readNest fuel (readLeafInt lo hi) (d + 1) s) (readNest k (readLeafInt lo hi) (d + 1) (raw s)) :=
  C136_lists (extracts_int lo hi) 0 d s hs fuel k hf hk

/-- **C136**, lists of `bool`, as numbers or words. -/
theorem C136_bools (d : Nat) (s : IStream) (hs : s.skipws = true) (fuel k : Nat) (hf : s.rest.length + 2 ≤ fuel) (hk : fuel + 2 ≤ k) :
    NoSkip s (readNest fuel (fun s => some (.ok (s.readBool false))) (d + 1) s) (readNest k (fun s => some (.ok (s.readBool false))) (d + 1) (raw s)) :=
  C136_lists extracts_bool false d s hs fuel k hf hk

/-- **C136**, lists of words. -/
theorem C136_words (d : Nat) (s : IStream) (hs : s.skipws = true) (fuel k : Nat) (hf : s.rest.length + 2 ≤ fuel) (hk : fuel + 2 ≤ k) :
    NoSkip s (readNest fuel (fun s => BinWord.readWord fuel s []) (d + 1) s) (readNest k (fun s => BinWord.readWord k s []) (d + 1) (raw s)) := by
  have hn := follows_nest (follows_word hk) (noStart_word k (by omega)) hk d
  refine noSkip_of_sim (sequence_raw hn.1 hn.2 (by decide) (by decide) (by decide) (by decide) (by decide) fuel k hk s hs) ?_ fun x s' hx => ?_
  · obtain ⟨r, h1, _⟩ := C135_words (d + 1) s fuel hf
    exact fun h2 => by rw [show readNest fuel _ (d + 1) s = _ from h2] at h1; cases h1
  · cases hg : s.good with
    | false => rw [nest_notGood fuel d hg] at hx; cases hx
    | true =>
      have := ((Mask.C134_words .none fuel d s hg).1 x s' hx).1
      simp [IStream.good] at this
      simp [IStream.failed, this.1.2, this.2]

/-- **C136**: a list that begins with a blank is refused, whatever the items are. -/
theorem C136_start (rd : IStream → Option (Res (L × IStream))) (d : Nat) (s : IStream) (hg : s.good = true) (hk : s.skipws = false) (b : Char)
    (t : List Char) (hr : s.rest = b :: t) (hb : isSpace b = true) (fuel : Nat) : readNest fuel rd (d + 1) s = some (.exn .iosFailure) := by
  have hb1 : b ≠ '[' := fun h => by rw [h] at hb; cases hb
  rw [readNest, readSequenceX, readChar_noskip hg hk, extract, hr]
  simp [hb1]

/-! ## Round trip -/

theorem noBlank_sep : ∀ (xs : List (List Char)), (∀ t ∈ xs, NoBlank t) → NoBlank (sepText [','] xs)
  | [], _ => by simp [sepText, NoBlank]
  | [x], h => by simpa [sepText] using h x (by simp)
  | x :: y :: ys, h => by
    rw [sepText]
    exact noBlank_append.2 ⟨noBlank_append.2 ⟨h x (by simp), by decide⟩, noBlank_sep (y :: ys) fun t ht => h t (List.mem_cons_of_mem _ ht)⟩

theorem noBlank_nest {txt : L → List Char} (h : ∀ x, NoBlank (txt x)) : ∀ d (x : Nest L d), NoBlank (nestText txt d x)
  | 0, x => h x
  | d + 1, x => by
    rw [nestText, show '[' :: (sepText [','] (x.map (nestText txt d)) ++ [']']) = ['['] ++ (sepText [','] (x.map (nestText txt d)) ++ [']']) from rfl,
      noBlank_append, noBlank_append]
    refine ⟨by decide, noBlank_sep _ fun t ht => ?_, by decide⟩
    obtain ⟨y, _, rfl⟩ := List.mem_map.1 ht
    exact noBlank_nest h d y

theorem noBlank_int (i : Int) : NoBlank (intText i) := by
  have hd : NoBlank (digits i.natAbs) := fun c hc => isDigit_not_space (isDigit_iff.2 ((digits_spec _).2 c hc))
  unfold intText
  split
  · intro c hc
    rcases List.mem_cons.1 hc with rfl | hc
    · rfl
    · exact hd c hc
  · exact hd

theorem noBlank_word (w : BinWord.Word) : NoBlank (BinWord.wordText w) := by
  unfold BinWord.wordText
  split
  · decide
  · intro c hc
    rcases BinWord.bitsText_isBit w c hc with rfl | rfl <;> rfl

/-- **C136**: nested lists of integers that were printed are read back. -/
theorem C136_roundTrip (lo hi : Int) (d : Nat) (x : Nest Int (d + 1)) (hx : ∀ i ∈ leaves (d + 1) x, lo ≤ i ∧ i ≤ hi) (rest : List Char) :
    ∃ n, ∀ fuel, n ≤ fuel → ∃ s, readNest fuel (readLeafInt lo hi) (d + 1)
        (raw (IStream.ofList ((printNest OStream.putInt (d + 1) .fresh x).out ++ rest))) = some (.ok (x, s)) ∧ s.rest = rest ∧ s.good = true := by
  obtain ⟨n, hn⟩ := C82_ints lo hi d x hx
  have hout := (writes_nest (wr := OStream.putInt) (fun os x hf hw => put_text hf hw _) (d + 1) .fresh x rfl rfl).1
  have hnb := noBlank_nest noBlank_int (d + 1) x
  generalize ht : (printNest OStream.putInt (d + 1) .fresh x).out = t at *
  have ht' : t = nestText intText (d + 1) x := by rw [hout]; rfl
  refine ⟨max n ((t ++ rest).length + 2) + 2, fun fuel hf => ?_⟩
  obtain ⟨s, h1, h2, h3⟩ := hn (max n ((t ++ rest).length + 2)) (Nat.le_max_left _ _) rest
  refine ⟨raw s, (C136_ints lo hi d _ rfl _ fuel (Nat.le_max_right _ _) hf).same x s h1 ?_, h2, h3⟩
  rw [took_eq (t := t) (by rw [h2]; rfl), ht']
  exact hnb

/-- **C136**: nested lists of words that are not empty and were printed are read back. -/
theorem C136_roundTripWords (d : Nat) (x : Nest BinWord.Word (d + 1)) (hx : ∀ w ∈ leaves (d + 1) x, w ≠ []) (rest : List Char) :
    ∃ n, ∀ fuel, n ≤ fuel → ∃ s, readNest fuel (fun s => BinWord.readWord fuel s []) (d + 1)
        (raw (IStream.ofList ((printNest BinWord.writeWord (d + 1) .fresh x).out ++ rest))) = some (.ok (x, s)) ∧ s.rest = rest ∧ s.good = true := by
  obtain ⟨n, hn⟩ := C82_words_partial d x hx
  have hw : WritesText BinWord.writeWord BinWord.wordText := fun os x hf hw => by
    rw [BinWord.writeWord_eq os hf]; exact ⟨by simp [hw], hf, rfl⟩
  have hout := (writes_nest hw (d + 1) .fresh x rfl rfl).1
  have hnb := noBlank_nest noBlank_word (d + 1) x
  generalize ht : (printNest BinWord.writeWord (d + 1) .fresh x).out = t at *
  have ht' : t = nestText BinWord.wordText (d + 1) x := by rw [hout]; rfl
  refine ⟨max n ((t ++ rest).length + 2) + 2, fun fuel hf => ?_⟩
  obtain ⟨s, h1, h2, h3⟩ := hn (max n ((t ++ rest).length + 2)) (Nat.le_max_left _ _) rest
  refine ⟨raw s, (C136_words d _ rfl _ fuel (Nat.le_max_right _ _) hf).same x s h1 ?_, h2, h3⟩
  rw [took_eq (t := t) (by rw [h2]; rfl), ht']
  exact hnb

/-! ## Characters: blanks are read as elements -/

theorem readChar_step {s : IStream} (hg : s.good = true) (hk : s.skipws = false) {c : Char} {t : List Char} (hr : s.rest = c :: t) (x : Option Char) :
    s.readChar x = (some c, { s with before := c :: s.before, rest := t }) := by
  rw [readChar_noskip hg hk, extract, hr]

theorem loop_step {s s1 s2 : IStream} {y c : Char} (he : s.eof = false) (h1 : s.readChar none = (some y, s1)) (hf : s1.failed = false)
    (h2 : s1.readChar (some ',') = (some c, s2)) (fuel : Nat) (v : List Char) :
    readLoop readItemChar ']' ',' (fuel + 1) ',' v s = readLoop readItemChar ']' ',' fuel c (v ++ [y]) s2 := by
  rw [readLoop]
  simp [he, readItemChar, h1, hf, h2]

theorem loop_chars (rest : List Char) : ∀ (xs : List Char) (y : Char) (fuel : Nat) (v : List Char) (s : IStream), xs.length + 2 ≤ fuel →
    s.good = true → s.skipws = false → s.rest = sepText [','] ((y :: xs).map fun c => [c]) ++ ']' :: rest →
    ∃ s', readLoop readItemChar ']' ',' fuel ',' v s = some (.ok (v ++ y :: xs, s')) ∧ s'.rest = rest ∧ s'.good = true := by
  intro xs
  induction xs with
  | nil =>
    intro y fuel v s hf hg hk hr
    obtain ⟨fuel, rfl⟩ : ∃ j, fuel = j + 2 := ⟨fuel - 2, by simp at hf; omega⟩
    have he : s.eof = false := by simp [IStream.good] at hg; exact hg.1.1
    have hnf : s.failed = false := by simp [IStream.good] at hg; simp [IStream.failed, hg.1.2, hg.2]
    have hr : s.rest = y :: ']' :: rest := hr
    have h1 := readChar_step hg hk hr none
    have h2 := readChar_step (s := { s with before := y :: s.before, rest := ']' :: rest }) hg hk rfl (some ',')
    refine ⟨{ s with before := ']' :: y :: s.before, rest := rest }, ?_, rfl, hg⟩
    rw [loop_step he h1 hnf h2]
    simp [readLoop]
  | cons z xs ih =>
    intro y fuel v s hf hg hk hr
    obtain ⟨fuel, rfl⟩ : ∃ j, fuel = j + 1 := ⟨fuel - 1, by simp at hf; omega⟩
    have he : s.eof = false := by simp [IStream.good] at hg; exact hg.1.1
    have hnf : s.failed = false := by simp [IStream.good] at hg; simp [IStream.failed, hg.1.2, hg.2]
    have hr : s.rest = y :: ',' :: (sepText [','] ((z :: xs).map fun c => [c]) ++ ']' :: rest) := hr
    generalize hu : sepText [','] ((z :: xs).map fun c => [c]) ++ ']' :: rest = u at hr
    have h1 := readChar_step hg hk hr none
    have h2 := readChar_step (s := { s with before := y :: s.before, rest := ',' :: u }) hg hk rfl (some ',')
    obtain ⟨s', h3, h4, h5⟩ := ih z fuel (v ++ [y]) { s with before := ',' :: y :: s.before, rest := u } (by simp at hf; omega) hg hk hu.symm
    refine ⟨s', ?_, h4, h5⟩
    rw [loop_step he h1 hnf h2, h3]
    simp

/-- **C136**: a vector of characters, blanks among them, is read back, unless its first element is a closing bracket. (With blanks skipped, such a
vector is not read back if there is a blank in it, C119.) -/
theorem C136_chars (xs v : List Char) (h0 : xs.head? ≠ some ']') (fuel : Nat) (hf : xs.length + 2 ≤ fuel) (rest : List Char) :
    ∃ s, readVector fuel readItemChar (raw (IStream.ofList ((printVector OStream.putChar .fresh xs).out ++ rest))) v = some (.ok (xs, s)) ∧
      s.rest = rest ∧ s.good = true := by
  rw [writtenText writesText_char]
  cases xs with
  | nil =>
    obtain ⟨fuel, rfl⟩ : ∃ j, fuel = j + 1 := ⟨fuel - 1, by simp at hf; omega⟩
    exact ⟨{ raw (IStream.ofList ('[' :: ']' :: rest)) with before := [']', '['], rest := rest }, by
      simp [readVector, readSequence, readChar, sentry, raw, IStream.ofList, IStream.good, sepText, extract, readLoop], rfl, rfl⟩
  | cons y xs =>
    have hy : y ≠ ']' := fun h => h0 (by rw [h]; rfl)
    generalize hs : raw (IStream.ofList ('[' :: (sepText [','] ((y :: xs).map fun c => [c]) ++ [']']) ++ rest)) = s
    have hg : s.good = true := by rw [← hs]; rfl
    have he : s.eof = false := by rw [← hs]; rfl
    have hk : s.skipws = false := by rw [← hs]; rfl
    obtain ⟨u, hu⟩ := sepText_head [','] [y] (xs.map fun c => [c])
    have hr : s.rest = '[' :: y :: (u ++ ']' :: rest) := by
      rw [← hs]
      show '[' :: (sepText [','] ([y] :: xs.map fun c => [c]) ++ [']']) ++ rest = _
      rw [hu]
      simp
    have h1 := readChar_step hg hk hr none
    have h2 := readChar_step (s := { s with before := '[' :: s.before, rest := y :: (u ++ ']' :: rest) }) hg hk rfl (some '[')
    have h3 : ({ s with before := y :: '[' :: s.before, rest := u ++ ']' :: rest } : IStream).putback y =
        { s with before := '[' :: s.before, rest := y :: (u ++ ']' :: rest) } := putback_read hg he
    obtain ⟨s', h4, h5, h6⟩ := loop_chars rest xs y fuel [] { s with before := '[' :: s.before, rest := y :: (u ++ ']' :: rest) }
      (by simp at hf; omega) hg hk (by
        show _ = sepText [','] ([y] :: xs.map fun c => [c]) ++ ']' :: rest
        rw [hu]; simp)
    refine ⟨s', ?_, h5, h6⟩
    simp only [readVector, readSequence, h1, h2, h3, List.drop_length]
    simp [hy, h4]

/-- C136 is false for vectors of characters that begin with a closing bracket: nothing is read. -/
theorem C136_chars_refuted (xs v : List Char) (fuel : Nat) (hf : 0 < fuel) (rest : List Char) :
    ∃ s, readVector fuel readItemChar (raw (IStream.ofList ((printVector OStream.putChar .fresh (']' :: xs)).out ++ rest))) v = some (.ok ([], s)) := by
  rw [writtenText writesText_char]
  obtain ⟨fuel, rfl⟩ : ∃ j, fuel = j + 1 := ⟨fuel - 1, by omega⟩
  obtain ⟨u, hu⟩ := sepText_head [','] [']'] (xs.map fun c => [c])
  have hr : (raw (IStream.ofList ('[' :: (sepText [','] ((']' :: xs).map fun c => [c]) ++ [']']) ++ rest))).rest = '[' :: ']' :: (u ++ ']' :: rest) := by
    show '[' :: (sepText [','] ([']'] :: xs.map fun c => [c]) ++ [']']) ++ rest = _
    rw [hu]
    simp
  generalize hs : raw (IStream.ofList ('[' :: (sepText [','] ((']' :: xs).map fun c => [c]) ++ [']']) ++ rest)) = s at hr
  have hg : s.good = true := by rw [← hs]; rfl
  have hk : s.skipws = false := by rw [← hs]; rfl
  have h1 := readChar_step hg hk hr none
  have h2 := readChar_step (s := { s with before := '[' :: s.before, rest := ']' :: (u ++ ']' :: rest) }) hg hk rfl (some '[')
  refine ⟨{ s with before := ']' :: '[' :: s.before, rest := u ++ ']' :: rest }, ?_⟩
  simp only [readVector, readSequence, h1, h2, List.drop_length]
  simp [readLoop]

/-! ## Words -/

/-- C136: at a blank, only empty words are read, and the stream stays where it is and good, so a loop `while(is >> w)` does not end. -/
theorem C136_word_stuck (s : IStream) (hg : s.good = true) (hk : s.skipws = false) (b : Char) (t : List Char) (hr : s.rest = b :: t)
    (hb : isSpace b = true) (fuel : Nat) (hf : 0 < fuel) (w : BinWord.Word) : BinWord.readWord fuel s w = some (.ok ([], s)) := by
  have he : s.eof = false := by simp [IStream.good] at hg; exact hg.1.1
  have hb1 : b ≠ '[' := fun h => by rw [h] at hb; cases hb
  have hb2 : (b == '0' || b == '1') = false := by
    cases h : (b == '0' || b == '1') with
    | false => rfl
    | true =>
      simp only [Bool.or_eq_true, beq_iff_eq] at h
      rcases h with rfl | rfl <;> cases hb
  obtain ⟨fuel, rfl⟩ : ∃ j, fuel = j + 1 := ⟨fuel - 1, by omega⟩
  have hpb : ({ s with before := b :: s.before, rest := t } : IStream).putback b = s := by rw [putback_read hg he, ← hr]
  simp only [BinWord.readWord, readChar_step hg hk hr none, hb1, if_false, BinWord.readBits, hb2, Bool.and_false, Bool.false_eq_true, hpb, List.drop_length]

/-- **C136**: a word that is not in brackets and has no blank before it is read as with blanks skipped, also at the end of the text. -/
theorem C136_word (s : IStream) (hs : s.skipws = true) (hg : s.good = true) (c : Char) (t : List Char) (hr : s.rest = c :: t) (hc : isSpace c = false)
    (hb : c ≠ '[') (fuel : Nat) (w : BinWord.Word) (s' : IStream) (h : BinWord.readWord fuel s [] = some (.ok (w, s'))) :
    BinWord.readWord fuel (raw s) [] = some (.ok (w, raw s')) := by
  have he : s.eof = false := by simp [IStream.good] at hg; exact hg.1.1
  have h1 : s.readChar none = (some c, { s with before := c :: s.before, rest := t }) := by
    simp [readChar, sentry, hg, hs, skipBlanks, hr, hc, extract]
  have h2 := readChar_step (s := raw s) hg rfl hr none
  have hpb : ({ s with before := c :: s.before, rest := t } : IStream).putback c = s := by rw [putback_read hg he, ← hr]
  rw [readWord_body, h1] at h
  rw [readWord_body, h2]
  simp only [wordBody, hb, if_false] at h ⊢
  cases h3 : BinWord.readBits fuel c [] { s with before := c :: s.before, rest := t } with
  | none => rw [h3] at h; cases h
  | some r =>
    obtain ⟨c', w', s1, rfl, h4, _⟩ := bits_raw fuel c [] { s with before := c :: s.before, rest := t } hg (by rw [hpb]; exact hg)
      (by rw [hpb, hr]) fuel (Nat.le_refl _) r h3
    rw [h3] at h
    simp only [Option.some.injEq, Res.ok.injEq, Prod.mk.injEq] at h
    rw [show ({ raw s with before := c :: (raw s).before, rest := t } : IStream) = raw { s with before := c :: s.before, rest := t } from rfl, h4]
    simp only [putback_raw, h.1, h.2]

/-- C136 is false for words one after the other: with blanks skipped all of the words are read (C15), without only the first one, then empty
words. -/
theorem C136_refuted :
    BinWord.readWords 9 3 (IStream.ofList "01 10 1;".toList) = some (.ok [[false, true], [true, false], [true]]) ∧
    BinWord.readWords 9 3 (raw (IStream.ofList "01 10 1;".toList)) = some (.ok [[false, true], [], []]) := by
  constructor <;> decide +kernel

/-- C136 is false for lists with blanks after the commas. -/
theorem C136_lists_refuted :
    (readNest 9 (readLeafInt (-9) 9) 1 (IStream.ofList "[1, 2]".toList)).map (fun r => (fun r => r.1) <$> r) = some (.ok [1, 2]) ∧
    readNest 11 (readLeafInt (-9) 9) 1 (raw (IStream.ofList "[1, 2]".toList)) = some (.exn .iosFailure) := by
  constructor <;> decide +kernel

example : (BinWord.readWord 9 (raw (IStream.ofList "011".toList)) []).map (fun r => (fun r => r.1) <$> r) = some (.ok [false, true, true]) := by
  decide +kernel
example : NoBlank "[1,-2]".toList := by decide
example : ¬ NoBlank "[1, 2]".toList := by decide
example : (readNest 12 (readLeafInt (-9) 9) 1 (raw (IStream.ofList "[1,-2]x".toList))).map (fun r => (fun r => (r.1, r.2.rest)) <$> r) =
    some (.ok ([1, -2], ['x'])) := by decide +kernel
example : readNest 12 (readLeafInt (-9) 9) 1 (raw (IStream.ofList " [1]".toList)) = some (.exn .iosFailure) := by decide +kernel
example : readNest 12 (readLeafInt (-9) 9) 1 (raw (IStream.ofList "".toList)) = some (.ub .indeterminate) := by decide +kernel
example : readNest 12 (readLeafInt (-9) 9) 1 (raw (IStream.ofList "[1 ]".toList)) = some (.exn .iosFailure) := by decide +kernel
example : (readVector 9 readItemChar (raw (IStream.ofList "[a, ,b]".toList)) []).map (fun r => (fun r => r.1) <$> r) = some (.ok ['a', ' ', 'b']) := by
  decide +kernel
example : isSpace ' ' = true ∧ (raw (IStream.ofList " 1".toList)).good = true := by decide

end Helper.Seq.Raw
