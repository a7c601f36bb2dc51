import Verif.Seq.Mask
import Verif.Seq.Fail
set_option linter.unusedSectionVars false
/-!
# Property C134: reading from streams with an exception mask
-/
namespace Helper.Seq.Mask
open IStream

variable {T L : Type}

/-! ## Without a mask the readers are those of C18, C82 and C87 -/

/-- The result without the state after an exception. -/
def forget : Option (Res T × IStream) → Option (Res (T × IStream))
  | .none => .none
  | some (.ok x, s) => some (.ok (x, s))
  | some (.exn e, _) => some (.exn e)
  | some (.ub u, _) => some (.ub u)
  | some (.abort, _) => some .abort

theorem loop_none (rd : Rd T) (closing sep : Char) : ∀ (fuel : Nat) (c : Char) (v : List T) (s : IStream),
    forget (asItem (readLoopM .none rd closing sep fuel c v s)) = readLoopX (fun s => forget (rd s)) closing sep fuel c v s := by
  intro fuel
  induction fuel with
  | zero => intros; rfl
  | succ fuel ih =>
    intro c v s
    rw [readLoopM, readLoopX]
    by_cases h1 : c = closing
    · simp only [h1, ne_eq, not_true, if_false]; rfl
    by_cases h2 : s.eof = true
    · simp only [h1, h2, ne_eq, not_false_eq_true, if_true]; rfl
    by_cases h3 : c = sep
    case neg => simp only [h1, h2, h3, ne_eq, not_false_eq_true, if_true]; rfl
    subst h3
    simp only [h1, h2, ne_eq, not_false_eq_true, if_true, not_true, if_false, Bool.false_eq_true]
    cases h4 : rd s with
    | none => rfl
    | some p =>
      obtain ⟨r, s1⟩ := p
      cases r with
      | ok x =>
        simp only [forget, guarded_none]
        by_cases h5 : s1.failed = true
        · simp only [h5, if_true]; rfl
        simp only [h5, Bool.false_eq_true, if_false]
        cases h6 : (s1.readChar (some c)).1 with
        | none => rfl
        | some c' => exact ih _ _ _
      | exn e => rfl
      | ub u => rfl
      | abort => rfl

theorem sequence_none (rd : Rd T) (opening closing sep : Char) (fuel : Nat) (v : List T) (s : IStream) :
    forget (asItem (readSequenceM .none fuel rd s v opening closing sep)) = readSequenceX fuel (fun s => forget (rd s)) s opening closing sep := by
  rw [readSequenceM, readSequenceX]
  simp only [guarded_none, List.drop_length]
  cases h1 : (s.readChar .none).1 with
  | none => rfl
  | some c =>
    simp only
    by_cases h2 : c = opening
    case neg => simp only [h2, ne_eq, not_false_eq_true, if_true]; rfl
    simp only [h2, ne_eq, not_true, if_false, readRestM, guarded_none]
    cases h3 : ((s.readChar .none).2.readChar (some opening)).1 with
    | none => rfl
    | some c' =>
      simp only
      by_cases h4 : c' = closing
      · simp only [h4, not_true, if_false]; exact loop_none ..
      · simp only [h4, not_false_eq_true, if_true]; exact loop_none ..

/-- C134: without a mask the reader of nested vectors is the one of C82. -/
theorem C134_same (rd : Rd L) (fuel : Nat) : ∀ (d : Nat) (s : IStream),
    forget (readNestM .none fuel rd d s) = readNest fuel (fun s => forget (rd s)) d s
  | 0, _ => rfl
  | d + 1, s => by
    rw [readNestM, readNest, sequence_none]
    congr 1
    exact funext fun s => C134_same rd fuel d s

theorem loop_contents (rd : IStream → Res T × IStream) (closing sep : Char) : ∀ (fuel : Nat) (c : Char) (v : List T) (s : IStream),
    readLoopM .none (fun s => some (rd s)) closing sep fuel c v s = readLoopS rd closing sep fuel c v s := by
  intro fuel
  induction fuel with
  | zero => intros; rfl
  | succ fuel ih =>
    intro c v s
    rw [readLoopM, readLoopS]
    simp only [guarded_none, ih]
    by_cases h1 : c = closing
    · simp only [h1, ne_eq, not_true, if_false]
    by_cases h2 : s.eof = true
    · simp only [h1, h2, ne_eq, not_false_eq_true, if_true]
    by_cases h3 : c = sep
    case neg => simp only [h1, h2, h3, ne_eq, not_false_eq_true, if_true]
    subst h3
    simp only [h1, h2, ne_eq, not_false_eq_true, if_true, not_true, if_false, Bool.false_eq_true]
    cases h4 : (rd s).1 with
    | ok x =>
      rw [show rd s = (.ok x, (rd s).2) by rw [← h4]]
      simp only
      by_cases h5 : (rd s).2.failed = true
      · simp only [h5, if_true]
      simp only [h5, Bool.false_eq_true, if_false]
      cases h6 : ((rd s).2.readChar (some c)) with
      | mk a b => cases a <;> rfl
    | exn e => rw [show rd s = (.exn e, (rd s).2) by rw [← h4]]
    | ub e => rw [show rd s = (.ub e, (rd s).2) by rw [← h4]]
    | abort => rw [show rd s = (.abort, (rd s).2) by rw [← h4]]

/-- C134: without a mask the container and the stream are left as in C87. -/
theorem C134_contents (rd : IStream → Res T × IStream) (opening closing sep : Char) (fuel : Nat) (v : List T) (s : IStream) :
    readSequenceM .none fuel (fun s => some (rd s)) s v opening closing sep = readSequenceS fuel rd s v opening closing sep := by
  rw [readSequenceM, readSequenceS]
  simp only [guarded_none]
  cases h1 : s.readChar .none with
  | mk a b =>
    cases a with
    | none => rfl
    | some c =>
      simp only
      by_cases h2 : c = opening
      case neg => simp only [h2, ne_eq, not_false_eq_true, if_true]
      simp only [h2, ne_eq, not_true, if_false, readRestM, guarded_none, loop_contents]
      cases h3 : b.readChar (some opening) with
      | mk a' b' => cases a' <;> rfl

theorem bits_none : ∀ (fuel : Nat) (c : Char) (w : BinWord.Word) (s : IStream),
    forget (asItem (readBitsM .none fuel c w s)) = match BinWord.readBits fuel c w s with
      | .none => .none
      | some (.ok (symbol, w, is)) => some (.ok (w, is.putback symbol))
      | some (.ub k) => some (.ub k)
      | some (.exn e) => some (.exn e)
      | some .abort => some .abort := by
  intro fuel
  induction fuel with
  | zero => intros; rfl
  | succ fuel ih =>
    intro c w s
    rw [readBitsM, BinWord.readBits]
    by_cases h : (!s.failed && (c == '0' || c == '1')) = true
    · simp only [h, if_true, guarded_none]
      cases h1 : (s.get (some c)).1 with
      | none => rfl
      | some c' => exact ih _ _ _
    · simp only [h, guarded_none]; rfl

/-- C134: without a mask the reader of words is the one of C13–C15. -/
theorem C134_sameWord (fuel : Nat) (s : IStream) (w : BinWord.Word) :
    forget (asItem (readWordM .none fuel s w)) = BinWord.readWord fuel s w := by
  rw [readWordM, BinWord.readWord]
  simp only [guarded_none]
  cases h1 : (s.readChar .none).1 with
  | none => rfl
  | some c =>
    simp only
    by_cases h2 : c = '['
    · simp only [h2, if_true]
      rw [sequence_none, readVector]
      exact C82_same (fun s => s.readBool false) fuel _ _ '[' ']' ','
    · simp only [h2, if_false, List.drop_length]
      exact bits_none fuel c [] _

/-! ## Lists -/

/-- What `Like` says in terms of the reader without a mask. -/
theorem like_forget {m : Mask} {a b : Option (Res T × IStream)} (h : Like m a b) :
    (∀ x s, forget a = some (.ok (x, s)) → s.good = true → b = some (.ok x, s)) ∧
    (∀ e, forget a = some (.exn e) → ∃ s, b = some (.exn .iosFailure, s)) ∧
    (∀ u, forget a = some (.ub u) → (m.eof || m.fail) = true → ∃ s, b = some (.exn .iosFailure, s)) ∧
    (∀ u, forget a = some (.ub u) → (m.eof || m.fail) = false → ∃ s, b = some (.ub u, s)) := by
  cases a with
  | none => simp [forget]
  | some p =>
    obtain ⟨r, s⟩ := p
    cases r with
    | ok x =>
      refine ⟨fun y s' hy hg => ?_, by simp [forget], by simp [forget], by simp [forget]⟩
      simp only [forget, Option.some.injEq, Res.ok.injEq, Prod.mk.injEq] at hy
      obtain ⟨rfl, rfl⟩ := hy
      rcases h with ⟨h, _⟩ | ⟨h, _⟩
      · exact h
      · rw [hg] at h; cases h
    | exn e => exact ⟨by simp [forget], fun e' _ => h.2, by simp [forget], by simp [forget]⟩
    | ub u =>
      refine ⟨by simp [forget], by simp [forget], fun u' hu hm => ?_, fun u' hu hm => ?_⟩
      · simpa only [Like, hm, if_true] using h
      · simp only [forget, Option.some.injEq, Res.ub.injEq] at hu
        subst hu
        simpa only [Like, hm, Bool.false_eq_true, if_false] using h
    | abort => exact h.elim

/-- **C134**: on a good stream with any mask a nested vector is read as without a mask: what is read is the same, what is rejected is
rejected by `std::ios_base::failure`, and where the reader without a mask uses an indeterminate character (C21) it throws
`std::ios_base::failure` if eofbit or failbit are in the mask. `f` is any operation of the stream that leaves failbit set. -/
theorem C134_lists (m : Mask) {f : IStream → L × IStream} (hf : KeepsFail f) (fuel d : Nat) (s : IStream) (hs : s.good = true) :
    (∀ x s', readNest fuel (fun s => some (.ok (f s))) (d + 1) s = some (.ok (x, s')) →
      s'.good = true ∧ readNestM m fuel (leafM m f) (d + 1) s = some (.ok x, s')) ∧
    (∀ e, readNest fuel (fun s => some (.ok (f s))) (d + 1) s = some (.exn e) →
      ∃ s', readNestM m fuel (leafM m f) (d + 1) s = some (.exn .iosFailure, s')) ∧
    (∀ u, readNest fuel (fun s => some (.ok (f s))) (d + 1) s = some (.ub u) → (m.eof || m.fail) = true →
      ∃ s', readNestM m fuel (leafM m f) (d + 1) s = some (.exn .iosFailure, s')) ∧
    (∀ u, readNest fuel (fun s => some (.ok (f s))) (d + 1) s = some (.ub u) → (m.eof || m.fail) = false →
      ∃ s', readNestM m fuel (leafM m f) (d + 1) s = some (.ub u, s')) := by
  have h0 : readNest fuel (fun s => some (.ok (f s))) (d + 1) s = forget (readNestM .none fuel (leafM .none f) (d + 1) s) :=
    (C134_same (leafM .none f) fuel (d + 1) s).symm
  have hC := sequence_like (mirrors_nest (mirrors_leaf m hf) fuel d) (opening := '[') (closing := ']') (sep := ',') (by decide) (by decide) fuel [] s hs
  have hL := like_asItem hC
  have h1 := like_forget hL
  rw [h0]
  refine ⟨fun x s' hx => ?_, h1.2⟩
  have hg : s'.good = true := by
    rw [readNestM] at hx
    revert hx hC
    cases readSequenceM .none fuel (readNestM .none fuel (leafM .none f) d) s [] '[' ']' ',' with
    | none => intro _ hx; cases hx
    | some p =>
      obtain ⟨r, v, s''⟩ := p
      cases r with
      | ok _ =>
        intro hC hx
        simp only [asItem, forget, Option.some.injEq, Res.ok.injEq, Prod.mk.injEq] at hx
        exact hx.2 ▸ hC.1
      | exn e => intro _ hx; cases hx
      | ub e => intro _ hx; cases hx
      | abort => intro _ hx; cases hx
  exact ⟨hg, h1.1 x s' hx hg⟩

/-- C134: the same for vectors of words; a vector of words is read also when a word ends it, because the closing bracket follows. -/
theorem C134_words (m : Mask) (fuel d : Nat) (s : IStream) (hs : s.good = true) :
    (∀ x s', readNest fuel (fun s => BinWord.readWord fuel s []) (d + 1) s = some (.ok (x, s')) →
      s'.good = true ∧ readNestM m fuel (wordM m fuel) (d + 1) s = some (.ok x, s')) ∧
    (∀ e, readNest fuel (fun s => BinWord.readWord fuel s []) (d + 1) s = some (.exn e) →
      ∃ s', readNestM m fuel (wordM m fuel) (d + 1) s = some (.exn .iosFailure, s')) ∧
    (∀ u, readNest fuel (fun s => BinWord.readWord fuel s []) (d + 1) s = some (.ub u) → (m.eof || m.fail) = true →
      ∃ s', readNestM m fuel (wordM m fuel) (d + 1) s = some (.exn .iosFailure, s')) ∧
    (∀ u, readNest fuel (fun s => BinWord.readWord fuel s []) (d + 1) s = some (.ub u) → (m.eof || m.fail) = false →
      ∃ s', readNestM m fuel (wordM m fuel) (d + 1) s = some (.ub u, s')) := by
  have h0 : readNest fuel (fun s => BinWord.readWord fuel s []) (d + 1) s = forget (readNestM .none fuel (wordM .none fuel) (d + 1) s) := by
    rw [C134_same]
    congr 1
    exact funext fun s => (C134_sameWord fuel s []).symm
  have hC := sequence_like (mirrors_nest (mirrors_word m fuel) fuel d) (opening := '[') (closing := ']') (sep := ',') (by decide) (by decide) fuel [] s hs
  have hL := like_asItem hC
  have h1 := like_forget hL
  rw [h0]
  refine ⟨fun x s' hx => ?_, h1.2⟩
  have hg : s'.good = true := by
    rw [readNestM] at hx
    revert hx hC
    cases readSequenceM .none fuel (readNestM .none fuel (wordM .none fuel) d) s [] '[' ']' ',' with
    | none => intro _ hx; cases hx
    | some p =>
      obtain ⟨r, v, s''⟩ := p
      cases r with
      | ok _ =>
        intro hC hx
        simp only [asItem, forget, Option.some.injEq, Res.ok.injEq, Prod.mk.injEq] at hx
        exact hx.2 ▸ hC.1
      | exn e => intro _ hx; cases hx
      | ub e => intro _ hx; cases hx
      | abort => intro _ hx; cases hx
  exact ⟨hg, h1.1 x s' hx hg⟩

/-- **C134** (partial: lists of integers, not words by themselves). A nested vector of integers that has been printed is read back from
a stream with any mask, whatever follows it. -/
theorem C134_roundTrip_partial (m : Mask) (lo hi : Int) (d : Nat) (x : Nest Int (d + 1)) (hx : ∀ i ∈ leaves (d + 1) x, lo ≤ i ∧ i ≤ hi) :
    ∃ n, ∀ fuel, n ≤ fuel → ∀ rest, ∃ s, readNestM m fuel (leafM m fun s => s.readInt lo hi 0) (d + 1)
        (IStream.ofList ((printNest OStream.putInt (d + 1) .fresh x).out ++ rest)) = some (.ok x, s) ∧ s.rest = rest ∧ s.good = true := by
  obtain ⟨n, hn⟩ := C82_ints lo hi d x hx
  refine ⟨n, fun fuel hf rest => ?_⟩
  obtain ⟨s, h1, h2, h3⟩ := hn fuel hf rest
  exact ⟨s, ((C134_lists m (keepsFail_int lo hi 0) fuel d _ rfl).1 x s h1).2, h2, h3⟩

/-- C134: the contents of the container after an exception are those of the reader without a mask (C87); if eofbit is in the mask the last
item may be missing. -/
theorem C134_left (m : Mask) {f : IStream → T × IStream} (hf : KeepsFail f) {opening closing sep : Char} (hoc : opening ≠ closing)
    (hcl : sep ≠ closing) (fuel : Nat) (v w : List T) (s s' : IStream) (e : Exn) (hs : s.good = true)
    (h : readSequenceS fuel (noThrow f) s v opening closing sep = some (.exn e, w, s')) :
    ∃ w' s'', readSequenceM m fuel (leafM m f) s v opening closing sep = some (.exn .iosFailure, w', s'') ∧
      (w' = w ∨ m.eof = true ∧ w' = w.dropLast) := by
  have h1 := sequence_like (mirrors_leaf m hf) hoc hcl fuel v s hs
  have h2 : readSequenceM .none fuel (leafM .none f) s v opening closing sep = readSequenceS fuel (noThrow f) s v opening closing sep :=
    C134_contents (noThrow f) opening closing sep fuel v s
  rw [h2, h] at h1
  exact h1.2

/-- C134: on a stream that is not good the reader throws if a bit of the mask is set then, and otherwise uses an indeterminate character. -/
theorem C134_notGood (m : Mask) (rd : Rd T) (opening closing sep : Char) (fuel : Nat) (v : List T) (s : IStream) (hs : s.good = false) :
    readSequenceM m fuel rd s v opening closing sep = some (if m.eof && s.eof || m.fail || m.bad && s.bad then .exn .iosFailure
      else .ub .indeterminate, [], { s with fail := true }) := by
  rw [sequence_stuck m rd opening closing sep fuel v s hs]
  simp [Mask.hits]

/-! ## Never undefined -/

/-- On good streams an item is read, with no bit of the mask set, or an exception is thrown. -/
def Defined (m : Mask) (rd : Rd T) : Prop := ∀ s, s.good = true → ∀ r s', rd s = some (r, s') →
  (∃ x, r = .ok x ∧ m.hits s' = false) ∨ ∃ e, r = .exn e

theorem defined_leaf (m : Mask) (f : IStream → T × IStream) : Defined m (leafM m f) := by
  intro s _ r s' h
  simp only [leafM, Option.some.injEq] at h
  cases hq : m.hits (f s).2 with
  | true => rw [guarded_hit hq] at h; cases h; exact .inr ⟨_, rfl⟩
  | false => rw [guarded_quiet hq] at h; cases h; exact .inl ⟨_, rfl, hq⟩

theorem fails_hit {m : Mask} (hm : (m.eof || m.fail) = true) {s s' : IStream} (h : m.hits s = false) (hf : s.failed = false)
    (hf' : s'.fail = true) (he : s.good = true → s'.eof = true) (hn : s.good = false → s' = { s with fail := true }) : m.hits s' = true := by
  simp only [Bool.or_eq_true] at hm
  rcases hm with hm | hm
  · cases hg : s.good with
    | true => simp [Mask.hits, hm, he hg]
    | false =>
      simp only [IStream.failed, Bool.or_eq_false_iff] at hf
      have : s.eof = true := by
        cases hh : s.eof with
        | true => rfl
        | false => simp [IStream.good, hh, hf.1, hf.2] at hg
      simp [Mask.hits, hm, this] at h
  · simp [Mask.hits, hm, hf']

theorem defined_loop {m : Mask} (hm : (m.eof || m.fail) = true) {rd : Rd T} (hrd : Defined m rd) (closing sep : Char) :
    ∀ (fuel : Nat) (c : Char) (v : List T) (s : IStream), s.good = true → ∀ r v' s', readLoopM m rd closing sep fuel c v s = some (r, v', s') →
      r = .ok () ∧ s'.good = true ∨ ∃ e, r = .exn e := by
  intro fuel
  induction fuel with
  | zero => intro c v s _ r v' s' h; cases h
  | succ fuel ih =>
    intro c v s hs r v' s' h
    rw [readLoopM] at h
    split at h
    · split at h
      · cases h; exact .inr ⟨_, rfl⟩
      · split at h
        · cases h; exact .inr ⟨_, rfl⟩
        · split at h
          · cases h
          · rename_i x s1 h1
            rcases hrd s hs _ _ h1 with ⟨y, _, hq⟩ | ⟨e, he⟩
            · split at h
              · cases h; exact .inr ⟨_, rfl⟩
              · rename_i hf
                have hf : s1.failed = false := by simpa using hf
                rcases readChar_cases s1 with ⟨z, s2, _, hg2, _, h3⟩ | ⟨s2, hf2, he2, hn2, _, h3⟩
                · rw [h3, guarded_quiet (r := (some z, s2)) (hits_good m hg2)] at h
                  exact ih _ _ _ hg2 _ _ _ h
                · rw [h3, guarded_hit (r := (some c, s2)) (fails_hit hm hq hf hf2 he2 hn2)] at h
                  cases h; exact .inr ⟨_, rfl⟩
            · cases he
          · cases h; exact .inr ⟨_, rfl⟩
          · rename_i u s1 h1
            rcases hrd s hs _ _ h1 with ⟨y, h2, _⟩ | ⟨e, h2⟩ <;> cases h2
          · rename_i s1 h1
            rcases hrd s hs _ _ h1 with ⟨y, h2, _⟩ | ⟨e, h2⟩ <;> cases h2
    · cases h; exact .inl ⟨rfl, hs⟩

theorem defined_sequence {m : Mask} (hm : (m.eof || m.fail) = true) {rd : Rd T} (hrd : Defined m rd) (opening closing sep : Char)
    (fuel : Nat) (v : List T) (s : IStream) (hs : s.good = true) (r : Res Unit) (v' : List T) (s' : IStream)
    (h : readSequenceM m fuel rd s v opening closing sep = some (r, v', s')) : r = .ok () ∧ s'.good = true ∨ ∃ e, r = .exn e := by
  have hq := hits_good m hs
  have hnf : s.failed = false := by simp [IStream.good] at hs; simp [IStream.failed, hs.1.2, hs.2]
  rw [readSequenceM] at h
  rcases readChar_cases s with ⟨z, s2, _, hg2, _, h3⟩ | ⟨s2, hf2, he2, hn2, _, h3⟩
  · rw [h3, guarded_quiet (r := (some z, s2)) (hits_good m hg2)] at h
    simp only at h
    split at h
    · cases h; exact .inr ⟨_, rfl⟩
    · have hnf2 : s2.failed = false := by simp [IStream.good] at hg2; simp [IStream.failed, hg2.1.2, hg2.2]
      rw [readRestM] at h
      rcases readChar_cases s2 with ⟨y, s3, _, hg3, hp, h4⟩ | ⟨s3, hf3, he3, hn3, _, h4⟩
      · rw [h4, guarded_quiet (r := (some y, s3)) (hits_good m hg3)] at h
        simp only at h
        split at h
        · rw [guarded_quiet (r := ((), s3.putback y)) (hits_good m hp)] at h
          exact defined_loop hm hrd closing sep fuel _ _ _ hp _ _ _ h
        · exact defined_loop hm hrd closing sep fuel _ _ _ hg3 _ _ _ h
      · rw [h4, guarded_hit (r := (some z, s3)) (fails_hit hm (hits_good m hg2) hnf2 hf3 he3 hn3)] at h
        cases h; exact .inr ⟨_, rfl⟩
  · rw [h3, guarded_hit (r := ((.none : Option Char), s2)) (fails_hit hm hq hnf hf2 he2 hn2)] at h
    cases h; exact .inr ⟨_, rfl⟩

theorem defined_nest {m : Mask} (hm : (m.eof || m.fail) = true) {rd : Rd L} (hrd : Defined m rd) (fuel : Nat) : ∀ d,
    Defined m (readNestM m fuel rd d)
  | 0 => hrd
  | d + 1 => by
    intro s hs r s' h
    rw [readNestM] at h
    have hd := defined_sequence hm (defined_nest hm hrd fuel d) '[' ']' ',' fuel [] s hs
    revert h hd
    cases readSequenceM m fuel (readNestM m fuel rd d) s [] '[' ']' ',' with
    | none => intro h _; cases h
    | some p =>
      obtain ⟨a, v, s1⟩ := p
      intro h hd
      rcases hd a v s1 rfl with ⟨rfl, hg⟩ | ⟨e, rfl⟩
      · cases h; exact .inl ⟨_, rfl, hits_good m hg⟩
      · cases h; exact .inr ⟨_, rfl⟩

/-- **C134**: with eofbit or failbit in the mask, reading a vector of vectors … from a good stream is defined, whatever the text and
whatever operation reads the items: the reader gives a vector, with no bit of the mask set, or throws. -/
theorem C134_defined (m : Mask) (hm : (m.eof || m.fail) = true) (f : IStream → L × IStream) (fuel d : Nat) (s : IStream) (hs : s.good = true)
    (r : Res (Nest L d)) (s' : IStream) (h : readNestM m fuel (leafM m f) d s = some (r, s')) :
    (∃ x, r = .ok x ∧ m.hits s' = false) ∨ ∃ e, r = .exn e := defined_nest hm (defined_leaf m f) fuel d s hs r s' h

/-- C134 is false for masks without eofbit and failbit: on a blank text the reader uses an indeterminate character, as without a mask. -/
theorem C134_defined_refuted (rd : Rd T) (opening closing sep : Char) (fuel : Nat) (v : List T) (s : IStream) (hs : s.Plain) (hb : Blank s.rest) (b : Bool) :
    ∃ s', readSequenceM ⟨false, false, b⟩ fuel rd s v opening closing sep = some (.ub .indeterminate, [], s') := by
  rw [readSequenceM, readChar_blank hs hb]
  have hq : Mask.hits ⟨false, false, b⟩ ({ s.adv s.rest [] with eof := true, fail := true } : IStream) = false := hits_bad rfl rfl hs.bad
  rw [guarded_quiet (r := ((.none : Option Char), ({ s.adv s.rest [] with eof := true, fail := true } : IStream))) hq]
  exact ⟨{ s.adv s.rest [] with eof := true, fail := true }, by simp⟩

/-! ## Words -/

/-- **C134** (partial: a character follows the word, or eofbit and failbit are not in the mask). A word is read as without a mask. -/
theorem C134_word_partial (m : Mask) {s : IStream} (hs : s.Plain) {b ds tail : List Char} (hb : Blank b)
    (hds : ∀ c ∈ ds, BinWord.IsBit c) (hr : s.rest = b ++ ds ++ tail) (htail : ∀ y t, tail = y :: t → ¬ BinWord.IsBit y) (hne : ds ≠ [])
    (hm : tail ≠ [] ∨ (m.eof || m.fail) = false) (w : BinWord.Word) (fuel : Nat) (hf : ds.length < fuel) :
    readWordM m fuel s w = some (.ok (), ds.map BinWord.bitOf, { s.adv (b ++ ds) tail with fail := tail.isEmpty }) := by
  cases ds with
  | nil => exact absurd rfl hne
  | cons d ds =>
    have hd := BinWord.isBit_digit (hds d (by simp))
    have h1 := readChar_split hs hb hd.1 (show s.rest = b ++ d :: (ds ++ tail) by rw [hr]; simp) .none
    have hp := adv_plain hs (b ++ [d]) (ds ++ tail)
    have h2 := (bits_run m htail ds (fun c hc => hds c (List.mem_cons_of_mem _ hc)) d (hds d (by simp)) _ [] fuel hp rfl
      (by simpa using hf)).2 hm
    simp only [readWordM, h1, guarded_quiet (r := (some d, s.adv (b ++ [d]) (ds ++ tail))) (hits_good m hp.good), hd.2, if_false,
      List.drop_length, h2]
    simp [BinWord.after, adv]

/-- C134: every text read as a word: what leaves the stream good is read as without a mask, what throws throws
`std::ios_base::failure`, and what is undefined throws if eofbit or failbit are in the mask. -/
theorem C134_word (m : Mask) (fuel : Nat) (s : IStream) (hs : s.good = true) :
    (∀ w s', BinWord.readWord fuel s [] = some (.ok (w, s')) → s'.good = true → wordM m fuel s = some (.ok w, s')) ∧
    (∀ e, BinWord.readWord fuel s [] = some (.exn e) → ∃ s', wordM m fuel s = some (.exn .iosFailure, s')) ∧
    (∀ u, BinWord.readWord fuel s [] = some (.ub u) → (m.eof || m.fail) = true → ∃ s', wordM m fuel s = some (.exn .iosFailure, s')) ∧
    (∀ u, BinWord.readWord fuel s [] = some (.ub u) → (m.eof || m.fail) = false → ∃ s', wordM m fuel s = some (.ub u, s')) := by
  rw [← C134_sameWord]
  exact like_forget ((mirrors_word m fuel).good s hs)

/-- **C134** is false for words at the end of the text: if eofbit or failbit are in the mask, reading the last word throws, though all of the
word has been read. -/
theorem C134_word_refuted (m : Mask) (hm : (m.eof || m.fail) = true) {s : IStream} (hs : s.Plain) {b ds : List Char} (hb : Blank b)
    (hds : ∀ c ∈ ds, BinWord.IsBit c) (hr : s.rest = b ++ ds) (hne : ds ≠ []) (w : BinWord.Word) (fuel : Nat) (hf : ds.length < fuel) :
    ∃ s', readWordM m fuel s w = some (.exn .iosFailure, ds.map BinWord.bitOf, s') := by
  cases ds with
  | nil => exact absurd rfl hne
  | cons d ds =>
    have hd := BinWord.isBit_digit (hds d (by simp))
    have h1 := readChar_split hs hb hd.1 (show s.rest = b ++ d :: ds by rw [hr]) .none
    have hp := adv_plain hs (b ++ [d]) ds
    obtain ⟨s', h2⟩ := (bits_run m (tail := []) (by simp) ds (fun c hc => hds c (List.mem_cons_of_mem _ hc)) d (hds d (by simp)) _ [] fuel hp
      (by simp [adv]) (by simpa using hf)).1 rfl hm
    refine ⟨s', ?_⟩
    simp only [readWordM, h1, guarded_quiet (r := (some d, s.adv (b ++ [d]) ds)) (hits_good m hp.good), hd.2, if_false,
      List.drop_length, h2]
    simp

/-- **C134** is false: the text of every word that is not empty, read back from a stream with eofbit or failbit in its mask, throws. -/
theorem C134_refuted (m : Mask) (hm : (m.eof || m.fail) = true) (w v : BinWord.Word) (hw : w ≠ []) (fuel : Nat) (hf : w.length < fuel) :
    ∃ s', readWordM m fuel (IStream.ofList (BinWord.writeWord .fresh w).out) v = some (.exn .iosFailure, w, s') := by
  rw [BinWord.writeWord_eq _ rfl]
  obtain ⟨s', h⟩ := C134_word_refuted m hm (s := IStream.ofList (BinWord.bitsText w)) (plain_ofList _) (b := []) (ds := BinWord.bitsText w) blank_nil
    (BinWord.bitsText_isBit w) rfl (by simpa [BinWord.bitsText] using hw) v fuel (by simpa [BinWord.bitsText] using hf)
  rw [BinWord.bitsText_bitOf] at h
  refine ⟨s', ?_⟩
  simpa [OStream.fresh, BinWord.wordText, hw] using h

/-- C134: blank texts and texts of other characters, read as a word. -/
theorem C134_word_blank (m : Mask) {s : IStream} (hs : s.Plain) (hb : Blank s.rest) (w : BinWord.Word) (fuel : Nat) :
    ∃ s', readWordM m fuel s w = some (if m.eof || m.fail then .exn .iosFailure else .ub .indeterminate, [], s') := by
  rw [readWordM, readChar_blank hs hb]
  cases hm : (m.eof || m.fail) with
  | true =>
    have hq : m.hits ({ s.adv s.rest [] with eof := true, fail := true } : IStream) = true := by
      simp only [Bool.or_eq_true] at hm
      rcases hm with h | h <;> simp [Mask.hits, h]
    rw [guarded_hit (r := ((.none : Option Char), ({ s.adv s.rest [] with eof := true, fail := true } : IStream))) hq]
    exact ⟨{ s.adv s.rest [] with eof := true, fail := true }, by simp⟩
  | false =>
    simp only [Bool.or_eq_false_iff] at hm
    have hq : m.hits ({ s.adv s.rest [] with eof := true, fail := true } : IStream) = false := hits_bad hm.1 hm.2 hs.bad
    rw [guarded_quiet (r := ((.none : Option Char), ({ s.adv s.rest [] with eof := true, fail := true } : IStream))) hq]
    exact ⟨{ s.adv s.rest [] with eof := true, fail := true }, by simp⟩

/-! ## Examples -/

example : BinWord.readWord 9 (.ofList "10x".toList) [] = some (.ok ([true, false], ⟨['0', '1'], ['x'], false, false, false, false, true⟩)) := by decide +kernel


/-- Masks used in the examples. -/
def onFail : Mask := ⟨false, true, false⟩
def onEof : Mask := ⟨true, false, false⟩
def onBad : Mask := ⟨false, false, true⟩
def ints : Mask → Rd Int := fun m => leafM m fun s => s.readInt (-128) 127 0
def run (m : Mask) (text : String) : Option (Res Unit × List Int) :=
  (readSequenceM m 20 (ints m) (.ofList text.toList) [7] '[' ']' ',').map fun r => (r.1, r.2.1)
def runWord (m : Mask) (text : String) : Option (Res Unit × List Bool) :=
  (readWordM m 20 (.ofList text.toList) [true]).map fun r => (r.1, r.2.1)

example : run onFail "[1, 2]" = some (.ok (), [1, 2]) ∧ run onEof "[1, 2]" = some (.ok (), [1, 2]) := by decide +kernel
example : run onFail "[1, 2" = some (.exn .iosFailure, [1, 2]) ∧ run onEof "[1, 2" = some (.exn .iosFailure, [1]) ∧
    run .none "[1, 2" = some (.exn .iosFailure, [1, 2]) := by decide +kernel
example : run onFail " " = some (.exn .iosFailure, []) ∧ run onBad " " = some (.ub .indeterminate, []) := by decide +kernel
example : run onFail "[1; 2]" = some (.exn .iosFailure, [1]) ∧ run onBad "[1, x]" = some (.exn .iosFailure, [1]) := by decide +kernel
example : runWord onFail "101 " = some (.ok (), [true, false, true]) ∧ runWord onFail "101" = some (.exn .iosFailure, [true, false, true]) ∧
    runWord onEof "101" = some (.exn .iosFailure, [true, false, true]) ∧ runWord onBad "101" = some (.ok (), [true, false, true]) ∧
    runWord onEof "[1,0]" = some (.ok (), [true, false]) := by decide +kernel
example : (readNestM onEof 20 (ints onEof) 2 (.ofList "[[1],[2]]".toList)).map (·.1) = some (.ok ([[1], [2]] : Nest Int 2)) ∧
    (readNestM .none 20 (ints .none) 2 (.ofList "[".toList)).map (·.1) = some (.ub .indeterminate : Res (Nest Int 2)) ∧
    (readNestM onEof 20 (ints onEof) 2 (.ofList "[".toList)).map (·.1) = some (.exn .iosFailure : Res (Nest Int 2)) := by decide +kernel
example : KeepsFail (fun s => s.readInt 0 9 0) := keepsFail_int 0 9 0
example : (onFail.eof || onFail.fail) = true ∧ (IStream.ofList []).good = true := ⟨rfl, rfl⟩
example : (readSequenceS 20 (noThrow fun s => s.readInt (-128) 127 0) (.ofList "[1, 2".toList) [7] '[' ']' ',').map (fun r => (r.1, r.2.1)) =
    some (.exn .iosFailure, [1, 2]) := by decide +kernel
example : (IStream.ofList "ab".toList).good = true ∧ ({ IStream.ofList "ab".toList with eof := true } : IStream).good = false := ⟨rfl, rfl⟩

end Helper.Seq.Mask
