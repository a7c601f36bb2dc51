import Verif.Seq.Nested
set_option linter.unusedSectionVars false
/-!
# Property C119: vectors of characters and of strings

`read_sequence` (stlio.hpp:144-190) for items of type `char` and `std::string`.
-/
namespace Helper.Seq
open IStream OStream

/-- `is >> x` for `char x`, as an item of `read_sequence` (stlio.hpp:176). What is stored when nothing can be read does
not matter, as the reader throws then. -/
def readItemChar (s : IStream) : Char × IStream :=
  let r := s.readChar none
  (r.1.getD '\x00', r.2)

/-- A character that is not blank. -/
def solid (c : Char) : Bool := !isSpace c

/-- `is >> x` for `std::string x` [string.io]: skips blanks and extracts characters up to a blank or the end, where eofbit
is set. (There is no width, and after the sentry there is at least one character.) -/
def readItemString (s : IStream) : List Char × IStream :=
  let r := s.sentry false
  if r.1 then
    let t := r.2.rest.takeWhile solid
    let rest' := r.2.rest.dropWhile solid
    (t, { r.2 with before := t.reverse ++ r.2.before, rest := rest', eof := r.2.eof || rest'.isEmpty,
                   fail := r.2.fail || t.isEmpty })
  else ([], r.2)

/-! ## Characters -/

theorem readsAs_char {c : Char} (hc : isSpace c = false) :
    ReadsAs (fun s => some (.ok (readItemChar s))) [c] c := by
  intro s d r hs _ hr
  have h := readChar_split hs (b := []) (x := c) (r := d :: r) blank_nil hc (by simpa using hr) none
  simp only [readItemChar, h]
  rfl

theorem writesText_char : WritesText OStream.putChar (fun c => [c]) := fun _ _ hf hw => put_text hf hw _

theorem writesText_string : WritesText putString id := fun _ _ hf hw => put_text hf hw _

theorem writtenText {T : Type} {wr : OStream → T → OStream} {txt : T → List Char} (h : WritesText wr txt) (xs : List T) :
    (printVector wr .fresh xs).out = '[' :: (sepText [','] (xs.map txt) ++ [']']) := by
  have := (writes_nest h 1 .fresh xs rfl rfl).1
  exact this.trans (List.nil_append _)

/-- **C119** (partial: no element is a blank, and the first one is not a closing bracket). A vector of characters is read
back, and exactly what was written is consumed. -/
theorem C119_chars_partial (xs v : List Char) (hx : ∀ c ∈ xs, isSpace c = false) (h0 : xs.head? ≠ some ']') (fuel : Nat)
    (hf : xs.length + 2 ≤ fuel) (rest : List Char) :
    ∃ s, readVector fuel readItemChar (IStream.ofList ((printVector OStream.putChar .fresh xs).out ++ rest)) v
        = some (.ok (xs, s)) ∧ s.rest = rest ∧ s.good = true := by
  rw [writtenText writesText_char]
  unfold readVector
  rw [← C82_same readItemChar fuel _ v]
  have hs := plain_ofList ('[' :: (sepText [','] (xs.map fun c => [c]) ++ [']']) ++ rest)
  cases xs with
  | nil =>
    have h1 := readChar_split hs (b := []) (x := '[') (r := ']' :: rest) blank_nil (by decide) rfl none
    have hp1 := adv_plain hs ['['] (']' :: rest)
    have h2 := readChar_split hp1 (b := []) (x := ']') (r := rest) blank_nil (by decide) rfl (some '[')
    simp only [List.nil_append, adv_adv] at h1 h2
    obtain ⟨fuel, rfl⟩ : ∃ k, fuel = k + 1 := ⟨fuel - 1, by omega⟩
    refine ⟨_, by simp only [readSequenceX, h1, h2]; simp [readLoopX]; rfl, rfl, rfl⟩
  | cons c cs =>
    have hb : Begins (sepText [','] ((c :: cs).map fun c => [c])) :=
      begins_sep ⟨c, [], rfl, hx c List.mem_cons_self, by simpa using h0⟩
    have h1 := sequenceX_start (rd := fun s => some (.ok (readItemChar s))) hs hb (rest := ']' :: rest)
      (by simp [IStream.ofList]) fuel
    have h2 := loopX_good (rd := fun s => some (.ok (readItemChar s))) (txt := fun c => [c]) c cs
      (fun y hy => readsAs_char (hx y hy)) fuel []
      ((IStream.ofList ('[' :: (sepText [','] ((c :: cs).map fun c => [c]) ++ [']']) ++ rest)).adv ['[']
        (sepText [','] ((c :: cs).map fun c => [c]) ++ ']' :: rest)) rest (by simp at hf; omega) (adv_plain hs _ _) rfl
    refine ⟨_, by rw [h1, h2]; rfl, rfl, ?_⟩
    rfl

theorem readChar_solid {s : IStream} (h : s.skipws = true) (c : Option Char) :
    (s.readChar c).2.skipws = true ∧
    ((s.readChar c).2.failed = false → ∃ x, (s.readChar c).1 = some x ∧ isSpace x = false) := by
  unfold readChar sentry
  by_cases hg : s.good = true
  · simp only [hg, if_true, h, Bool.true_and, Bool.not_false]
    cases hr : s.rest.dropWhile isSpace with
    | nil => simp [skipBlanks, hr, h, IStream.failed]
    | cons x r =>
      have hx := dropWhile_head (p := isSpace) x r hr
      simp [skipBlanks, hr, h, extract, hx]
  · simp [hg, h, IStream.failed]

theorem putback_skipws (s : IStream) (c : Char) : (s.putback c).skipws = s.skipws := by
  unfold putback sentry
  simp only [Bool.not_true, Bool.and_false, Bool.false_eq_true, if_false]
  repeat' split
  all_goals first | rfl | simp

/-- What the reader of characters returns holds no blanks. -/
theorem loop_solid : ∀ (fuel : Nat) (c : Char) (v : List Char) (s : IStream), s.skipws = true →
    ∀ w s', readLoop readItemChar ']' ',' fuel c v s = some (.ok (w, s')) → ∃ u, w = v ++ u ∧ ∀ x ∈ u, isSpace x = false := by
  intro fuel
  induction fuel with
  | zero => intro c v s _ w s' h; cases h
  | succ fuel ih =>
    intro c v s hs w s' h
    rw [readLoop] at h
    split at h
    · split at h
      · cases h
      split at h
      · cases h
      simp only at h
      split at h
      · cases h
      rename_i hnf
      have hnf : (readItemChar s).2.failed = false := by simpa using hnf
      obtain ⟨h1, h2⟩ := readChar_solid hs none
      obtain ⟨x, hx1, hx2⟩ := h2 hnf
      have hv : (readItemChar s).1 = x := by simp [readItemChar, hx1]
      rw [hv] at h
      split at h
      · cases h
      · have h3 : (readItemChar s).2.skipws = true := h1
        obtain ⟨u, hu1, hu2⟩ := ih _ _ _ (readChar_solid h3 _).1 w s' h
        refine ⟨x :: u, by rw [hu1]; simp, ?_⟩
        intro y hy
        rcases List.mem_cons.1 hy with rfl | hy
        · exact hx2
        · exact hu2 y hy
    · injection h with h
      injection h with h
      exact ⟨[], by simpa using (Prod.mk.inj h).1.symm, by simp⟩

/-- **C119**: every other vector of characters is not read back, whatever follows it. -/
theorem C119_chars_only (xs v : List Char) (hx : (∃ c ∈ xs, isSpace c = true) ∨ xs.head? = some ']') (fuel : Nat)
    (rest : List Char) (s : IStream) :
    readVector fuel readItemChar (IStream.ofList ((printVector OStream.putChar .fresh xs).out ++ rest)) v
      ≠ some (.ok (xs, s)) := by
  rw [writtenText writesText_char]
  intro h
  unfold readVector readSequence at h
  have hs := plain_ofList ('[' :: (sepText [','] (xs.map fun c => [c]) ++ [']']) ++ rest)
  have h1 := readChar_split hs (b := []) (x := '[') (r := sepText [','] (xs.map fun c => [c]) ++ [']'] ++ rest) blank_nil
    (by decide) rfl none
  have hp1 := adv_plain hs ['['] (sepText [','] (xs.map fun c => [c]) ++ [']'] ++ rest)
  simp only [List.nil_append] at h1
  simp only [h1, List.drop_length, ne_eq, not_true_eq_false, if_false] at h
  rcases hx with ⟨c, hc, hb⟩ | hc
  · have key : ∀ (c' : Char) (s1 : IStream), s1.skipws = true →
        readLoop readItemChar ']' ',' fuel c' [] s1 ≠ some (.ok (xs, s)) := by
      intro c' s1 hs1 h
      obtain ⟨u, hu1, hu2⟩ := loop_solid fuel c' [] s1 hs1 xs s h
      rw [List.nil_append] at hu1
      subst hu1
      rw [hu2 c hc] at hb
      cases hb
    have hsk := (readChar_solid hp1.skip (some '[')).1
    split at h
    · cases h
    · split at h
      · exact key _ _ (by rw [putback_skipws]; exact hsk) h
      · exact key _ _ hsk h
  · obtain ⟨t, rfl⟩ : ∃ t, xs = ']' :: t := by
      cases xs with
      | nil => cases hc
      | cons x t => simp at hc; exact ⟨t, by rw [hc]⟩
    obtain ⟨u, hu⟩ := sepText_head [','] [']'] (t.map fun c => [c])
    have h2 := readChar_split hp1 (b := []) (x := ']') (r := u ++ [']'] ++ rest) blank_nil (by decide)
      (by simp only [List.map_cons, hu]; simp [adv]) (some '[')
    simp only [h2] at h
    cases fuel with
    | zero => simp [readLoop] at h
    | succ fuel => simp [readLoop] at h

/-- **C119** is false: blanks are skipped when a vector is read. -/
theorem C119_refuted :
    (readVector 9 readItemChar (IStream.ofList (printVector OStream.putChar .fresh [' ']).out) []).map
      (fun r => (fun p => p.1) <$> r) = some (.ok []) ∧
    (readVector 9 readItemChar (IStream.ofList (printVector OStream.putChar .fresh [' ', ' ']).out) []).map
      (fun r => (fun p => p.1) <$> r) = some (.ok [',']) ∧
    (readVector 9 readItemChar (IStream.ofList (printVector OStream.putChar .fresh ['a', ' ', 'b']).out) []).map
      (fun r => (fun p => p.1) <$> r) = some (.exn .iosFailure) := by
  decide +kernel

/-! ## Strings -/

theorem readItemString_plain {s : IStream} (h : s.Plain) {b : List Char} {x : Char} {r : List Char} (hb : Blank b)
    (hx : isSpace x = false) (hr : s.rest = b ++ x :: r) :
    readItemString s = ((x :: r).takeWhile solid, { s.adv (b ++ (x :: r).takeWhile solid) ((x :: r).dropWhile solid) with
      eof := ((x :: r).dropWhile solid).isEmpty }) := by
  unfold readItemString
  rw [sentry_split h hb hx hr]
  simp [adv, h.eof, h.fail, solid, hx]

theorem loop_extends {T : Type} {rd : IStream → T × IStream} : ∀ (fuel : Nat) (c : Char) (v : List T) (s : IStream) w s',
    readLoop rd ']' ',' fuel c v s = some (.ok (w, s')) → ∃ u, w = v ++ u := by
  intro fuel
  induction fuel with
  | zero => intro c v s w s' h; cases h
  | succ fuel ih =>
    intro c v s w s' h
    rw [readLoop] at h
    split at h
    · split at h
      · cases h
      split at h
      · cases h
      simp only at h
      split at h
      · cases h
      split at h
      · cases h
      · obtain ⟨u, hu⟩ := ih _ _ _ w s' h
        exact ⟨_ :: u, by rw [hu, List.append_assoc]; rfl⟩
    · injection h with h
      injection h with h
      exact ⟨[], by simpa using (Prod.mk.inj h).1.symm⟩

/-- A first character that is not blank, if there is one. -/
theorem split_blank (l : List Char) : Blank l ∨ ∃ b x r, l = b ++ x :: r ∧ Blank b ∧ isSpace x = false := by
  cases h : l.dropWhile isSpace with
  | nil =>
    left
    intro c hc
    have : l = l.takeWhile isSpace := by
      have := List.takeWhile_append_dropWhile (p := isSpace) (l := l)
      rw [h, List.append_nil] at this
      exact this.symm
    rw [this] at hc
    exact mem_takeWhile_imp c hc
  | cons x r =>
    right
    refine ⟨l.takeWhile isSpace, x, r, ?_, fun c hc => mem_takeWhile_imp c hc, dropWhile_head x r h⟩
    rw [← h, List.takeWhile_append_dropWhile]

theorem takeWhile_solid {t rest : List Char} (ht : ∀ c ∈ t, solid c = true) :
    (t ++ rest).takeWhile solid = t ++ rest.takeWhile solid := by
  induction t with
  | nil => rfl
  | cons c t ih =>
    have hc := ht c List.mem_cons_self
    simp [hc, ih fun d hd => ht d (List.mem_cons_of_mem _ hd)]

/-- **C119** is false for strings: no vector of strings but the empty one is ever read back, whatever follows it, because
the reader of a string takes the separators and brackets as parts of the string. -/
theorem C119_strings_refuted (xs v : List (List Char)) (hx : xs ≠ []) (fuel : Nat) (rest : List Char) (s : IStream) :
    readVector fuel readItemString (IStream.ofList ((printVector putString .fresh xs).out ++ rest)) v
      ≠ some (.ok (xs, s)) := by
  rw [writtenText writesText_string]
  intro h
  obtain ⟨x0, ys, rfl⟩ := List.exists_cons_of_ne_nil hx
  obtain ⟨d, r, hd, htext⟩ : ∃ d r, isSpace d = false ∧
      sepText [','] ((x0 :: ys).map id) ++ [']'] ++ rest = x0 ++ d :: r := by
    cases ys with
    | nil => exact ⟨']', rest, by decide, by simp [sepText]⟩
    | cons y ys => exact ⟨',', sepText [','] (y :: ys) ++ [']'] ++ rest, by decide, by simp [sepText]⟩
  unfold readVector readSequence at h
  have hs := plain_ofList ('[' :: (sepText [','] ((x0 :: ys).map id) ++ [']']) ++ rest)
  have h1 := readChar_split hs (b := []) (x := '[') (r := x0 ++ d :: r) blank_nil (by decide)
    (by rw [← htext]; rfl) none
  have hp1 := adv_plain hs ['['] (x0 ++ d :: r)
  simp only [List.nil_append] at h1
  simp only [h1, List.drop_length, ne_eq, not_true_eq_false, if_false] at h
  rcases split_blank (x0 ++ d :: r) with hbl | ⟨b, x, q, hq, hb, hx⟩
  · have := hbl d (by simp)
    rw [hd] at this; cases this
  · have h2 := readChar_split hp1 (b := b) (x := x) (r := q) hb hx hq (some '[')
    simp only [h2] at h
    split at h
    · have h3 := putback_adv hp1 b x q
      rw [h3] at h
      cases fuel with
      | zero => cases h
      | succ fuel =>
        rw [readLoop] at h
        have hp2 := adv_plain hp1 b (x :: q)
        have h4 := readItemString_plain hp2 (b := []) (x := x) (r := q) blank_nil hx rfl
        split at h
        · split at h
          · cases h
          split at h
          · cases h
          simp only [h4] at h
          split at h
          · cases h
          split at h
          · cases h
          · obtain ⟨u, hu⟩ := loop_extends _ _ _ _ _ _ h
            simp only [List.nil_append, List.singleton_append, List.cons.injEq] at hu
            have h5 : x0 = (x :: q).takeWhile solid := hu.1
            have hsol : ∀ c ∈ x0, solid c = true := by
              rw [h5]; exact fun c hc => mem_takeWhile_imp c hc
            have hb0 : b = [] := by
              cases b with
              | nil => rfl
              | cons b0 bs =>
                cases hx0 : x0 with
                | nil => rw [hx0] at h5; simp [solid, hx] at h5
                | cons y t =>
                  rw [hx0] at hq
                  simp only [List.cons_append, List.cons.injEq] at hq
                  have e1 := hb b0 List.mem_cons_self
                  have e2 := hsol y (by rw [hx0]; exact List.mem_cons_self)
                  rw [hq.1] at e2
                  simp [solid, e1] at e2
            subst hb0
            rw [List.nil_append] at hq
            rw [← hq, takeWhile_solid hsol, List.takeWhile_cons] at h5
            have e3 : solid d = true := by simp [solid, hd]
            rw [if_pos e3] at h5
            have := congrArg List.length h5
            simp at this
        · rename_i hne; exact absurd (by decide) hne
    · rename_i hc
      have hc : x = ']' := Classical.not_not.1 hc
      subst hc
      cases fuel with
      | zero => cases h
      | succ fuel => simp [readLoop] at h

theorem solid_sep : ∀ (xs : List (List Char)), (∀ t ∈ xs, ∀ c ∈ t, isSpace c = false) →
    ∀ c ∈ sepText [','] xs ++ [']'], solid c = true := by
  intro xs hx c hc
  have : ∀ (ys : List (List Char)), (∀ t ∈ ys, ∀ c ∈ t, isSpace c = false) → ∀ c ∈ sepText [','] ys, solid c = true := by
    intro ys
    induction ys with
    | nil => intro _ c hc; simp [sepText] at hc
    | cons y ys ih =>
      intro hy c hc
      cases ys with
      | nil => simp only [sepText] at hc; simp [solid, hy y List.mem_cons_self c hc]
      | cons z zs =>
        simp only [sepText, List.mem_append, List.mem_singleton] at hc
        rcases hc with (hc | rfl) | hc
        · simp [solid, hy y List.mem_cons_self c hc]
        · decide
        · exact ih (fun t ht => hy t (List.mem_cons_of_mem _ ht)) c hc
  rcases List.mem_append.1 hc with hc | hc
  · exact this xs hx c hc
  · rw [List.mem_singleton] at hc; subst hc; decide

/-- **C119**: if the strings hold no blanks, and the first is not empty and does not begin with a closing bracket, reading
the vector throws when nothing follows it. -/
theorem C119_strings_throw (x : Char) (t : List Char) (ys v : List (List Char)) (hx : x ≠ ']')
    (hs : ∀ u ∈ (x :: t) :: ys, ∀ c ∈ u, isSpace c = false) (fuel : Nat) (hf : 2 ≤ fuel) :
    readVector fuel readItemString (IStream.ofList (printVector putString .fresh ((x :: t) :: ys)).out) v
      = some (.exn .iosFailure) := by
  rw [writtenText writesText_string]
  have hsol := solid_sep ((x :: t) :: ys) hs
  obtain ⟨u, hu⟩ := sepText_head [','] (x :: t) ys
  have hx1 := hs (x :: t) List.mem_cons_self x List.mem_cons_self
  simp only [List.map_id]
  rw [hu] at hsol ⊢
  unfold readVector
  rw [← C82_same readItemString fuel _ v]
  have hp := plain_ofList ('[' :: ((x :: t) ++ u ++ [']']))
  have h1 := sequenceX_start (rd := fun s => some (.ok (readItemString s))) hp (t := (x :: t) ++ u) (rest := [']'])
    ⟨x, t ++ u, rfl, hx1, hx⟩ (by simp [IStream.ofList]) fuel
  rw [h1]
  have hp1 := adv_plain hp ['['] ((x :: t) ++ u ++ [']'])
  have h4 := readItemString_plain hp1 (b := []) (x := x) (r := t ++ u ++ [']']) blank_nil hx1 rfl
  have e1 : (x :: (t ++ u ++ [']'])).takeWhile solid = x :: (t ++ u ++ [']']) := by
    have := takeWhile_solid (t := x :: (t ++ u ++ [']'])) (rest := []) (by simpa using hsol)
    simpa using this
  have e2 : (x :: (t ++ u ++ [']'])).dropWhile solid = [] := by
    have := List.takeWhile_append_dropWhile (p := solid) (l := x :: (t ++ u ++ [']']))
    rw [e1] at this
    exact List.append_cancel_left (this.trans (List.append_nil _).symm)
  rw [e1, e2] at h4
  obtain ⟨fuel, rfl⟩ : ∃ k, fuel = k + 2 := ⟨fuel - 2, by omega⟩
  rw [readLoopX]
  simp only [hp1.eof, h4]
  have hnf : ∀ b : List Char, ({ ((IStream.ofList ('[' :: ((x :: t) ++ u ++ [']']))).adv ['['] ((x :: t) ++ u ++ [']'])).adv b []
      with eof := true } : IStream).failed = false := fun _ => rfl
  simp only [List.isEmpty_nil, hnf]
  rw [readChar_notGood (by rfl)]
  simp [readLoopX]

/-! Non-vacuity -/

example : (∀ c ∈ ['a', ']', ',', 'b'], isSpace c = false) ∧ ['a', ']', ',', 'b'].head? ≠ some ']' := by decide +kernel
example : (readVector 9 readItemChar (IStream.ofList ((printVector OStream.putChar .fresh ['a', ']', ',', 'b']).out ++ ['x'])) []).map
    (fun r => (fun p => (p.1, p.2.rest)) <$> r) = some (.ok (['a', ']', ',', 'b'], ['x'])) := by decide +kernel
/-- A vector that begins with a closing bracket is read as an empty one. -/
example : (readVector 9 readItemChar (IStream.ofList (printVector OStream.putChar .fresh [']', 'a']).out) []).map
    (fun r => (fun p => (p.1, p.2.rest)) <$> r) = some (.ok ([], [',', 'a', ']'])) := by decide +kernel
/-- Strings may be misread. -/
example : (readVector 9 readItemString (IStream.ofList (printVector putString .fresh ["a ,b ".toList]).out) []).map
    (fun r => (fun p => p.1) <$> r) = some (.ok ["a".toList, "b".toList]) := by decide +kernel
example : (readVector 9 readItemString (IStream.ofList ((printVector putString .fresh ["a".toList]).out ++ " ]".toList)) []).map
    (fun r => (fun p => p.1) <$> r) = some (.ok ["a]".toList]) := by decide +kernel

end Helper.Seq
