import Verif.Seq.Mask
set_option linter.unusedSectionVars false
/-!
# Reading lists ends, whatever the text

Every step of the loop of `read_sequence` (stlio.hpp:169-182) consumes a character, or is the last but one.
-/
namespace Helper.Seq
open IStream

variable {T L : Type}

/-- Reading an item from a stream with at most `n` characters ends, and does not put back characters that it has not read. -/
def Ends (n : Nat) (rd : IStream → Option (Res (T × IStream))) : Prop :=
  ∀ s, s.rest.length ≤ n → rd s ≠ none ∧ ∀ x s', rd s = some (.ok (x, s')) → s'.rest.length ≤ s.rest.length

theorem dropWhile_length {A : Type} (p : A → Bool) : ∀ l : List A, (l.dropWhile p).length ≤ l.length
  | [] => Nat.le_refl _
  | x :: l => by
    simp only [List.dropWhile_cons]
    split
    · exact Nat.le_succ_of_le (dropWhile_length p l)
    · exact Nat.le_refl _

/-- Reading a character consumes one, or sets failbit; if it fails on a stream without failbit and badbit, eofbit is set then. -/
theorem readChar_length (s : IStream) :
    (∃ x s', s'.good = true ∧ s'.rest.length + 1 ≤ s.rest.length ∧ (s'.putback x).rest.length = s'.rest.length + 1 ∧
      ∀ c, s.readChar c = (some x, s')) ∨
    ∃ s', s'.fail = true ∧ (s.failed = false → s'.eof = true) ∧ s'.rest.length ≤ s.rest.length ∧ ∀ c, s.readChar c = (c, s') := by
  cases hg : s.good with
  | false =>
    refine .inr ⟨{ s with fail := true }, rfl, fun hf => ?_, Nat.le_refl _, fun c => readChar_notGood hg c⟩
    simp only [IStream.failed, Bool.or_eq_false_iff] at hf
    show s.eof = true
    cases he : s.eof with
    | true => rfl
    | false => simp [IStream.good, he, hf.1, hf.2] at hg
  | true =>
    have hg' := hg
    simp only [IStream.good, Bool.and_eq_true, Bool.not_eq_true'] at hg'
    obtain ⟨⟨h1, h2⟩, h3⟩ := hg'
    cases hk : s.skipws with
    | true =>
      have hl : s.skipBlanks.rest.length ≤ s.rest.length := dropWhile_length _ _
      cases hr : s.skipBlanks.rest with
      | nil =>
        refine .inr ⟨{ s.skipBlanks with eof := true, fail := true }, rfl, fun _ => rfl, hl, fun c => ?_⟩
        simp [readChar, sentry, hg, hk, hr]
      | cons x r =>
        refine .inl ⟨x, { s.skipBlanks with before := x :: s.skipBlanks.before, rest := r }, ?_, by rw [hr] at hl; exact hl, ?_, fun c => ?_⟩
        · simp [IStream.good, skipBlanks, h1, h2, h3]
        · simp [IStream.good, putback, sentry, skipBlanks, h2, h3]
        · simp [readChar, sentry, hg, hk, hr, extract]
    | false =>
      cases hr : s.rest with
      | nil =>
        refine .inr ⟨{ s with eof := true, fail := true }, rfl, fun _ => rfl, by simp [hr], fun c => ?_⟩
        simp [readChar, sentry, hg, hk, hr, extract]
      | cons x r =>
        refine .inl ⟨x, { s with before := x :: s.before, rest := r }, ?_, Nat.le_refl _, ?_, fun c => ?_⟩
        · simp [IStream.good, h1, h2, h3]
        · simp [IStream.good, putback, sentry, h2, h3]
        · simp [readChar, sentry, hg, hk, hr, extract]

theorem ends_loop {n : Nat} {rd : IStream → Option (Res (T × IStream))} (hrd : Ends n rd) (closing sep : Char) :
    ∀ (k : Nat) (c : Char) (v : List T) (s : IStream), s.rest.length ≤ n → s.rest.length + 2 ≤ k →
      readLoopX rd closing sep k c v s ≠ none ∧ ∀ x s', readLoopX rd closing sep k c v s = some (.ok (x, s')) → s'.rest.length ≤ s.rest.length := by
  intro k
  induction k with
  | zero => intro c v s _ h; omega
  | succ k ih =>
    intro c v s hn hk
    rw [readLoopX]
    by_cases h1 : c = closing
    · simp only [h1, ne_eq, not_true, if_false]
      exact ⟨by simp, fun x s' h => by cases h; exact Nat.le_refl _⟩
    by_cases h2 : s.eof = true
    · simp only [h1, h2, ne_eq, not_false_eq_true, if_true]
      exact ⟨by simp, fun x s' h => by cases h⟩
    by_cases h3 : c = sep
    case neg =>
      simp only [h1, h2, h3, ne_eq, not_false_eq_true, if_true]
      exact ⟨by simp, fun x s' h => by cases h⟩
    subst h3
    simp only [h1, h2, ne_eq, not_false_eq_true, if_true, not_true, if_false, Bool.false_eq_true]
    obtain ⟨h4, h5⟩ := hrd s hn
    cases h6 : rd s with
    | none => exact absurd h6 h4
    | some r =>
      cases r with
      | exn e => exact ⟨by simp, fun x s' h => by cases h⟩
      | ub e => exact ⟨by simp, fun x s' h => by cases h⟩
      | abort => exact ⟨by simp, fun x s' h => by cases h⟩
      | ok p =>
        obtain ⟨x, s1⟩ := p
        have hl := h5 x s1 h6
        simp only
        by_cases h7 : s1.failed = true
        · simp only [h7, if_true]
          exact ⟨by simp, fun x s' h => by cases h⟩
        simp only [h7, Bool.false_eq_true, if_false]
        rcases readChar_length s1 with ⟨y, s2, _, hl2, _, h8⟩ | ⟨s2, _, he, hl2, h8⟩
        · simp only [h8]
          obtain ⟨h9, h10⟩ := ih y (v ++ [x]) s2 (by omega) (by omega)
          exact ⟨h9, fun z s' h => by have := h10 z s' h; omega⟩
        · simp only [h8]
          obtain ⟨k, rfl⟩ : ∃ j, k = j + 1 := ⟨k - 1, by omega⟩
          have he' : s2.eof = true := he (by simpa using h7)
          simp only [readLoopX, h1, he', ne_eq, not_false_eq_true, if_true]
          exact ⟨by simp, fun x s' h => by cases h⟩

/-- Reading a list ends if reading its items does. -/
theorem ends_sequence {n : Nat} {rd : IStream → Option (Res (T × IStream))} (hrd : Ends n rd) (opening closing sep : Char) {fuel : Nat}
    (hf : n + 2 ≤ fuel) : Ends n (fun s => readSequenceX fuel rd s opening closing sep) := by
  intro s hn
  simp only
  rw [readSequenceX]
  rcases readChar_length s with ⟨y, s2, _, hl2, _, h8⟩ | ⟨s2, _, he, hl2, h8⟩
  · simp only [h8]
    by_cases h1 : y = opening
    case neg =>
      simp only [h1, ne_eq, not_false_eq_true, if_true]
      exact ⟨by simp, fun x s' h => by cases h⟩
    simp only [h1, ne_eq, not_true, if_false]
    rcases readChar_length s2 with ⟨z, s3, _, hl3, hp, h9⟩ | ⟨s3, hf3, he, hl3, h9⟩
    · simp only [h9]
      by_cases h2 : z = closing
      · simp only [h2, not_true, if_false]
        obtain ⟨h3, h4⟩ := ends_loop hrd closing sep fuel closing [] s3 (by omega) (by omega)
        exact ⟨h3, fun x s' h => by have := h4 x s' h; omega⟩
      · simp only [h2, not_false_eq_true, if_true]
        obtain ⟨h3, h4⟩ := ends_loop hrd closing sep fuel sep [] (s3.putback z) (by omega) (by omega)
        exact ⟨h3, fun x s' h => by have := h4 x s' h; omega⟩
    · simp only [h9]
      have hp : (s3.putback opening).rest.length = s3.rest.length := by rw [putback_failed hf3]
      by_cases h2 : opening = closing
      · simp only [h2, not_true, if_false]
        obtain ⟨h3, h4⟩ := ends_loop hrd closing sep fuel closing [] s3 (by omega) (by omega)
        exact ⟨h3, fun x s' h => by have := h4 x s' h; omega⟩
      · simp only [h2, not_false_eq_true, if_true]
        obtain ⟨h3, h4⟩ := ends_loop hrd closing sep fuel sep [] (s3.putback opening) (by omega) (by omega)
        exact ⟨h3, fun x s' h => by have := h4 x s' h; omega⟩
  · simp only [h8]
    exact ⟨by simp, fun x s' h => by cases h⟩

theorem ends_nest {n : Nat} {rd : IStream → Option (Res (L × IStream))} (hrd : Ends n rd) {fuel : Nat} (hf : n + 2 ≤ fuel) :
    ∀ d, Ends n (readNest fuel rd d)
  | 0 => hrd
  | d + 1 => ends_sequence (ends_nest hrd hf d) '[' ']' ',' hf

/-- Items read by one operation that does not put back characters. -/
theorem ends_leaf {f : IStream → T × IStream} (h : ∀ s, (f s).2.rest.length ≤ s.rest.length) (n : Nat) :
    Ends n (fun s => some (.ok (f s))) := fun s _ => ⟨by simp, fun x s' hx => by
  have := h s
  simp only [Option.some.injEq, Res.ok.injEq] at hx
  rw [hx] at this
  exact this⟩

theorem sentry_length (s : IStream) (b : Bool) : (s.sentry b).2.rest.length ≤ s.rest.length := by
  unfold sentry
  split
  · split
    · simp only
      split
      · exact dropWhile_length _ _
      · exact dropWhile_length _ _
    · exact Nat.le_refl _
  · exact Nat.le_refl _

theorem extractInt_length (lo hi : Int) (s : IStream) : (extractInt lo hi s).2.rest.length ≤ s.rest.length := by
  have h : ((s.rest.drop (signLength s.rest)).dropWhile isDigit).length ≤ s.rest.length :=
    Nat.le_trans (dropWhile_length _ _) (by rw [List.length_drop]; omega)
  unfold extractInt
  simp only
  repeat (first | exact h | split)

theorem readInt_length (lo hi x : Int) (s : IStream) : (s.readInt lo hi x).2.rest.length ≤ s.rest.length := by
  unfold readInt
  simp only
  split
  · exact Nat.le_trans (extractInt_length ..) (sentry_length s false)
  · exact sentry_length s false

theorem matchWord_length : ∀ (w : List Char) (s : IStream), (matchWord w s).2.rest.length ≤ s.rest.length
  | [], s => Nat.le_refl _
  | c :: w, s => by
    rw [matchWord]
    split
    · exact Nat.le_refl _
    · rename_i x r hr
      split
      · have := matchWord_length w { s with before := x :: s.before, rest := r }
        rw [hr]
        exact Nat.le_succ_of_le this
      · exact Nat.le_refl _

theorem readBool_length (b : Bool) (s : IStream) : (s.readBool b).2.rest.length ≤ s.rest.length := by
  have h : ∀ s, (extractBool s).2.rest.length ≤ s.rest.length := by
    intro s
    unfold extractBool
    split
    · split
      · have := matchWord_length ['t', 'r', 'u', 'e'] s
        simp only
        split <;> exact this
      · have := matchWord_length ['f', 'a', 'l', 's', 'e'] s
        simp only
        split <;> exact this
      · exact Nat.le_refl _
    · have := extractInt_length longMin longMax s
      simp only
      split
      · exact this
      · split
        · exact this
        · split <;> exact this
  unfold readBool
  simp only
  split
  · exact Nat.le_trans (h _) (sentry_length s false)
  · exact sentry_length s false

theorem readChar_shrinks (c : Option Char) (s : IStream) : (s.readChar c).2.rest.length ≤ s.rest.length := by
  rcases readChar_length s with ⟨_, s2, _, hl, _, h⟩ | ⟨s2, _, _, hl, h⟩
  · rw [h]; show s2.rest.length ≤ _; omega
  · rw [h]; exact hl

theorem putback_le (s : IStream) (x : Char) : (s.putback x).rest.length ≤ s.rest.length + 1 := by
  unfold putback
  have h := sentry_length { s with eof := false } true
  simp only at h ⊢
  split
  · split
    · split
      · simp only [List.length_cons]; omega
      · simp only; omega
    · simp only; omega
  · omega

theorem get_length (s : IStream) :
    (∃ x s', s.failed = false ∧ s'.rest.length + 1 ≤ s.rest.length ∧ ∀ c, s.get c = (some x, s')) ∨
    ∃ s', s'.fail = true ∧ s'.rest.length ≤ s.rest.length ∧ ∀ c, s.get c = (c, s') := by
  cases hg : s.good with
  | false => exact .inr ⟨{ s with fail := true }, rfl, Nat.le_refl _, fun c => by simp [IStream.get, sentry, hg]⟩
  | true =>
    cases hr : s.rest with
    | nil => exact .inr ⟨{ s with eof := true, fail := true }, rfl, by simp [hr], fun c => by simp [IStream.get, sentry, hg, hr, extract]⟩
    | cons x r =>
      refine .inl ⟨x, { s with before := x :: s.before, rest := r }, ?_, Nat.le_refl _, fun c => by simp [IStream.get, sentry, hg, hr, extract]⟩
      simp [IStream.good] at hg
      simp [IStream.failed, hg.1.2, hg.2]

/-- The loop reading a word ends. When a character has been consumed, the symbol can be put back without growing the text. -/
theorem ends_bits : ∀ (k : Nat) (c : Char) (w : BinWord.Word) (s : IStream), s.rest.length + 2 ≤ k →
    BinWord.readBits k c w s ≠ none ∧ ∀ c' w' s', BinWord.readBits k c w s = some (.ok (c', w', s')) → s'.rest.length ≤ s.rest.length := by
  intro k
  induction k with
  | zero => intro c w s h; omega
  | succ k ih =>
    intro c w s hk
    rw [BinWord.readBits]
    by_cases h : (!s.failed && (c == '0' || c == '1')) = true
    · simp only [h, if_true]
      rcases get_length s with ⟨x, s2, _, hl, h2⟩ | ⟨s2, hf, hl, h2⟩
      · simp only [h2]
        obtain ⟨h3, h4⟩ := ih x (w ++ [if (c == '0') = true then false else true]) s2 (by omega)
        exact ⟨h3, fun c' w' s' h => by have := h4 c' w' s' h; omega⟩
      · simp only [h2]
        obtain ⟨k, rfl⟩ : ∃ j, k = j + 1 := ⟨k - 1, by omega⟩
        have hfail : s2.failed = true := by simp [IStream.failed, hf]
        rw [BinWord.readBits]
        simp only [hfail, Bool.not_true, Bool.false_and, Bool.false_eq_true, if_false]
        exact ⟨by simp, fun c' w' s' h => by cases h; exact hl⟩
    · simp only [h]
      exact ⟨by simp, fun c' w' s' h => by cases h; exact Nat.le_refl _⟩

/-- Reading a word ends. -/
theorem ends_word {n fuel : Nat} (hf : n + 2 ≤ fuel) : Ends n (fun s => BinWord.readWord fuel s []) := by
  intro s hn
  simp only
  rw [BinWord.readWord]
  rcases readChar_length s with ⟨y, s2, _, hl2, hp, h8⟩ | ⟨s2, _, he, hl2, h8⟩
  · simp only [h8]
    split
    · have h := ends_sequence (ends_leaf (readBool_length false) n) '[' ']' ',' hf (s2.putback y) (by omega)
      simp only [C82_same (fun s => s.readBool false) fuel _ []] at h
      refine ⟨h.1, fun x s' hx => ?_⟩
      have := h.2 x s' hx
      omega
    · obtain ⟨h3, h4⟩ := ends_bits fuel y [] s2 (by omega)
      simp only [List.drop_length]
      cases h5 : BinWord.readBits fuel y [] s2 with
      | none => exact absurd h5 h3
      | some r =>
        cases r with
        | exn e => exact ⟨by simp, fun x s' h => by cases h⟩
        | ub e => exact ⟨by simp, fun x s' h => by cases h⟩
        | abort => exact ⟨by simp, fun x s' h => by cases h⟩
        | ok p =>
          obtain ⟨c', w', s3⟩ := p
          have hl3 := h4 c' w' s3 h5
          refine ⟨by simp, fun x s' h => ?_⟩
          simp only [Option.some.injEq, Res.ok.injEq, Prod.mk.injEq] at h
          have := putback_le s3 c'
          rw [← h.2]
          omega
  · simp only [h8]
    exact ⟨by simp, fun x s' h => by cases h⟩

end Helper.Seq
