import Verif.Seq.Ends
import Verif.Seq.MaskProps
import Verif.Seq.Chars
set_option linter.unusedSectionVars false
/-!
# Property C135: reading lists and words ends

The texts are finite; on a stream that never ends (a terminal, a socket) reading can go on for as long as separators come.
-/
namespace Helper.Seq
open IStream

variable {T L : Type}

/-- **C135**: reading a nested vector ends on every stream, in whatever state, with whatever text, and does not lengthen the text to come. `f` is
any operation of the stream that does not lengthen it. -/
theorem C135_lists {f : IStream → L × IStream} (h : ∀ s, (f s).2.rest.length ≤ s.rest.length) (d : Nat) (s : IStream) (fuel : Nat)
    (hf : s.rest.length + 2 ≤ fuel) :
    ∃ r, readNest fuel (fun s => some (.ok (f s))) d s = some r ∧ ∀ x s', r = .ok (x, s') → s'.rest.length ≤ s.rest.length := by
  obtain ⟨h1, h2⟩ := ends_nest (ends_leaf h s.rest.length) hf d s (Nat.le_refl _)
  cases h3 : readNest fuel (fun s => some (.ok (f s))) d s with
  | none => exact absurd h3 h1
  | some r => exact ⟨r, rfl, fun x s' hr => h2 x s' (hr ▸ h3)⟩

/-- **C135**: reading a word ends. -/
theorem C135_word (s : IStream) (fuel : Nat) (hf : s.rest.length + 2 ≤ fuel) :
    ∃ r, BinWord.readWord fuel s [] = some r ∧ ∀ w s', r = .ok (w, s') → s'.rest.length ≤ s.rest.length := by
  obtain ⟨h1, h2⟩ := ends_word hf s (Nat.le_refl _)
  cases h3 : BinWord.readWord fuel s [] with
  | none => exact absurd h3 h1
  | some r => exact ⟨r, rfl, fun x s' hr => h2 x s' (hr ▸ h3)⟩

/-- **C135**: reading nested vectors of words ends. -/
theorem C135_words (d : Nat) (s : IStream) (fuel : Nat) (hf : s.rest.length + 2 ≤ fuel) :
    ∃ r, readNest fuel (fun s => BinWord.readWord fuel s []) d s = some r ∧ ∀ x s', r = .ok (x, s') → s'.rest.length ≤ s.rest.length := by
  obtain ⟨h1, h2⟩ := ends_nest (ends_word (n := s.rest.length) hf) hf d s (Nat.le_refl _)
  cases h3 : readNest fuel (fun s => BinWord.readWord fuel s []) d s with
  | none => exact absurd h3 h1
  | some r => exact ⟨r, rfl, fun x s' hr => h2 x s' (hr ▸ h3)⟩

/-- **C135**: `make_binary_word` and the constructor from a string end on every string. -/
theorem C135_ofString (t : List Char) (fuel : Nat) (hf : t.length + 2 ≤ fuel) : BinWord.ofString fuel t ≠ none := by
  obtain ⟨r, h, _⟩ := C135_word (IStream.ofList t) fuel hf
  unfold BinWord.ofString BinWord.makeBinaryWord
  rw [h]
  cases r <;> simp

/-! ## The number of items -/

theorem items_loop {rd : IStream → Option (Res (T × IStream))} (hrd : ∀ s x s', rd s = some (.ok (x, s')) → s'.rest.length ≤ s.rest.length)
    (closing sep : Char) : ∀ (k : Nat) (c : Char) (v : List T) (s : IStream) (x : List T) (s' : IStream),
      readLoopX rd closing sep k c v s = some (.ok (x, s')) → x.length + s'.rest.length ≤ v.length + s.rest.length := by
  intro k
  induction k with
  | zero => intro c v s x s' h; cases h
  | succ k ih =>
    intro c v s x s' h
    rw [readLoopX] at h
    by_cases h1 : c = closing
    · simp only [h1, ne_eq, not_true, if_false] at h
      cases h; exact Nat.le_refl _
    by_cases h2 : s.eof = true
    · simp only [h1, h2, ne_eq, not_false_eq_true, if_true] at h
      cases h
    by_cases h3 : c = sep
    case neg =>
      simp only [h1, h2, h3, ne_eq, not_false_eq_true, if_true] at h
      cases h
    subst h3
    simp only [h1, h2, ne_eq, not_false_eq_true, if_true, not_true, if_false, Bool.false_eq_true] at h
    cases h6 : rd s with
    | none => rw [h6] at h; cases h
    | some r =>
      rw [h6] at h
      cases r with
      | exn e => cases h
      | ub e => cases h
      | abort => cases h
      | ok p =>
        obtain ⟨y, s1⟩ := p
        have hl := hrd s y s1 h6
        simp only at h
        by_cases h7 : s1.failed = true
        · simp only [h7, if_true] at h
          cases h
        simp only [h7, Bool.false_eq_true, if_false] at h
        rcases readChar_length s1 with ⟨z, s2, _, hl2, _, h8⟩ | ⟨s2, _, he, hl2, h8⟩
        · simp only [h8] at h
          have := ih _ _ _ _ _ h
          simp only [List.length_append, List.length_singleton] at this
          omega
        · simp only [h8] at h
          have he' : s2.eof = true := he (by simpa using h7)
          cases k with
          | zero => cases h
          | succ k =>
            simp only [readLoopX, h1, he', ne_eq, not_false_eq_true, if_true] at h
            cases h

/-- **C135**: a list that is read has fewer items than characters are consumed, so the memory it needs is bounded by the text. -/
theorem C135_items {rd : IStream → Option (Res (T × IStream))} (hrd : ∀ s x s', rd s = some (.ok (x, s')) → s'.rest.length ≤ s.rest.length)
    (opening closing sep : Char) (fuel : Nat) (s : IStream) (x : List T) (s' : IStream)
    (h : readSequenceX fuel rd s opening closing sep = some (.ok (x, s'))) : x.length + s'.rest.length < s.rest.length := by
  rw [readSequenceX] at h
  rcases readChar_length s with ⟨y, s2, _, hl2, _, h8⟩ | ⟨s2, _, he, hl2, h8⟩
  · simp only [h8] at h
    by_cases h1 : y = opening
    case neg =>
      simp only [h1, ne_eq, not_false_eq_true, if_true] at h
      cases h
    simp only [h1, ne_eq, not_true, if_false] at h
    rcases readChar_length s2 with ⟨z, s3, _, hl3, hp, h9⟩ | ⟨s3, hf3, he, hl3, h9⟩
    · simp only [h9] at h
      by_cases h2 : z = closing
      · simp only [h2, not_true, if_false] at h
        have := items_loop hrd closing sep _ _ _ _ _ _ h
        simp only [List.length_nil] at this
        omega
      · simp only [h2, not_false_eq_true, if_true] at h
        have := items_loop hrd closing sep _ _ _ _ _ _ h
        simp only [List.length_nil] at this
        omega
    · simp only [h9] at h
      have hp : (s3.putback opening).rest.length = s3.rest.length := by rw [putback_failed hf3]
      by_cases h2 : opening = closing
      · simp only [h2, not_true, if_false] at h
        have := items_loop hrd closing sep _ _ _ _ _ _ h
        simp only [List.length_nil] at this
        omega
      · simp only [h2, not_false_eq_true, if_true] at h
        have := items_loop hrd closing sep _ _ _ _ _ _ h
        simp only [List.length_nil] at this
        omega
  · simp only [h8] at h
    cases h

/-! ## With a mask -/

theorem like_some {m : Mask.Mask} {a b : Option (Res T × IStream)} (h : Mask.Like m a b) (ha : a ≠ none) : b ≠ none := by
  cases a with
  | none => exact absurd rfl ha
  | some p =>
    obtain ⟨r, s⟩ := p
    cases r with
    | ok x =>
      rcases h with ⟨h, _⟩ | ⟨_, _, s', h⟩ <;> rw [h] <;> simp
    | exn e => obtain ⟨_, s', h⟩ := h; rw [h]; simp
    | ub u =>
      simp only [Mask.Like] at h
      split at h <;> (obtain ⟨s', h⟩ := h; rw [h]; simp)
    | abort => exact h.elim

theorem forget_some {a : Option (Res T × IStream)} (h : Mask.forget a ≠ none) : a ≠ none := by
  intro ha; rw [ha] at h; exact h rfl

/-- **C135**: on streams with an exception mask reading ends too. -/
theorem C135_masked (m : Mask.Mask) {f : IStream → L × IStream} (hk : Mask.KeepsFail f) (h : ∀ s, (f s).2.rest.length ≤ s.rest.length)
    (d : Nat) (s : IStream) (fuel : Nat) (hf : s.rest.length + 2 ≤ fuel) :
    Mask.readNestM m fuel (Mask.leafM m f) d s ≠ none := by
  cases hs : s.good with
  | true =>
    obtain ⟨r, h1, _⟩ := C135_lists h d s fuel hf
    refine like_some ((Mask.mirrors_nest (Mask.mirrors_leaf m hk) fuel d).good s hs) (forget_some ?_)
    rw [Mask.C134_same]
    have : (fun s => Mask.forget (Mask.leafM Mask.Mask.none f s)) = fun s => some (.ok (f s)) := rfl
    rw [this, h1]
    simp
  | false =>
    cases d with
    | zero => simp [Mask.readNestM, Mask.leafM]
    | succ d =>
      rw [Mask.readNestM, Mask.sequence_stuck _ _ _ _ _ _ _ _ hs]
      split <;> simp [Mask.asItem]

/-! ## Items -/

theorem readItemChar_length (s : IStream) : (readItemChar s).2.rest.length ≤ s.rest.length := by
  unfold readItemChar
  exact readChar_shrinks _ s

example : readNest 3 (fun s => some (.ok (s.readInt 0 9 0))) 2 (IStream.ofList ['[']) = some (.ub .indeterminate) := by decide +kernel
example (s : IStream) : (s.readInt 0 9 0).2.rest.length ≤ s.rest.length := readInt_length 0 9 0 s
example : (readSequenceX 9 (fun s => some (.ok (s.readInt 0 9 0))) (IStream.ofList "[1,2]".toList) '[' ']' ',').map
    (fun r => (fun r => (r.1, r.2.rest)) <$> r) = some (.ok ([1, 2], [])) := by decide +kernel
example : readNest 3 (fun s => some (.ok (s.readInt 0 9 0))) 1 (IStream.ofList "[1,2,3]".toList) = none := by decide +kernel

end Helper.Seq
