import Verif.Seq.MaskModel
set_option linter.unusedSectionVars false
/-!
# C134, lemmas: the readers on a stream with a mask compared with those on a stream without
-/
namespace Helper.Seq.Mask
open IStream

variable {T L : Type}

theorem hits_none (s : IStream) : Mask.none.hits s = false := rfl

theorem guarded_none {A : Type} (r : A × IStream) : guarded Mask.none r = (.ok r.1, r.2) := rfl

theorem hits_good (m : Mask) {s : IStream} (h : s.good = true) : m.hits s = false := by
  simp only [IStream.good, Bool.and_eq_true, Bool.not_eq_true'] at h
  simp [Mask.hits, h.1.1, h.1.2, h.2]

theorem guarded_quiet {A : Type} {m : Mask} {r : A × IStream} (h : m.hits r.2 = false) : guarded m r = (.ok r.1, r.2) := by
  simp [guarded, h]

theorem guarded_hit {A : Type} {m : Mask} {r : A × IStream} (h : m.hits r.2 = true) : guarded m r = (.exn .iosFailure, r.2) := by
  simp [guarded, h]

/-- Reading a character either gives one and leaves the stream good, or leaves the variable as it is and sets failbit, on a good
stream eofbit too. -/
theorem readChar_cases (s : IStream) :
    (∃ x s', s.good = true ∧ s'.good = true ∧ (s'.putback x).good = true ∧ ∀ c, s.readChar c = (some x, s')) ∨
    ∃ s', s'.fail = true ∧ (s.good = true → s'.eof = true) ∧ (s.good = false → s' = { s with fail := true }) ∧ s'.bad = s.bad ∧
      ∀ c, s.readChar c = (c, s') := by
  cases hg : s.good with
  | false => exact .inr ⟨{ s with fail := true }, rfl, by simp, fun _ => rfl, rfl, fun c => readChar_notGood hg c⟩
  | true =>
    have hg' := hg
    simp only [IStream.good, Bool.and_eq_true, Bool.not_eq_true'] at hg'
    obtain ⟨⟨h1, h2⟩, h3⟩ := hg'
    cases hk : s.skipws with
    | true =>
      by_cases hb : s.skipBlanks.rest.isEmpty
      · refine .inr ⟨{ s.skipBlanks with eof := true, fail := true }, rfl, fun _ => rfl, by simp, rfl, fun c => ?_⟩
        simp [readChar, sentry, hg, hk, hb]
      · cases hr : s.skipBlanks.rest with
        | nil => rw [hr] at hb; exact absurd rfl hb
        | cons x r =>
          refine .inl ⟨x, { s.skipBlanks with before := x :: s.skipBlanks.before, rest := r }, rfl, ?_, ?_, fun c => ?_⟩
          · simp [IStream.good, skipBlanks, h1, h2, h3]
          · simp [IStream.good, putback, sentry, skipBlanks, h2, h3]
          · simp [readChar, sentry, hg, hk, hr, extract]
    | false =>
      cases hr : s.rest with
      | nil =>
        refine .inr ⟨{ s with eof := true, fail := true }, rfl, fun _ => rfl, by simp, rfl, fun c => ?_⟩
        simp [readChar, sentry, hg, hk, hr, extract]
      | cons x r =>
        refine .inl ⟨x, { s with before := x :: s.before, rest := r }, rfl, ?_, ?_, fun c => ?_⟩
        · simp [IStream.good, h1, h2, h3]
        · simp [IStream.good, putback, sentry, h2, h3]
        · simp [readChar, sentry, hg, hk, hr, extract]

/-- How an item is read on a stream with the mask (`r`), compared with a stream without (the first result): the same, or an
exception where the stream is left with a bit set, where an exception is thrown anyway, and, if eofbit or failbit are in the mask, where
the behaviour is undefined. -/
def Like (m : Mask) : Option (Res T × IStream) → Option (Res T × IStream) → Prop
  | .none, _ => True
  | some (.ok x, s), r => r = some (.ok x, s) ∧ m.hits s = false ∨
      s.good = false ∧ (s.failed = true ∨ m.eof = true) ∧ ∃ s', r = some (.exn .iosFailure, s')
  | some (.exn e, _), r => e = .iosFailure ∧ ∃ s', r = some (.exn .iosFailure, s')
  | some (.ub u, _), r => if m.eof || m.fail then ∃ s', r = some (.exn .iosFailure, s') else ∃ s', r = some (.ub u, s')
  | some (.abort, _), _ => False

/-- The same for lists, with the contents of the container. -/
def LikeC (m : Mask) : Option (Res Unit × List T × IStream) → Option (Res Unit × List T × IStream) → Prop
  | .none, _ => True
  | some (.ok _, v, s), r => s.good = true ∧ r = some (.ok (), v, s)
  | some (.exn e, v, _), r => e = .iosFailure ∧ ∃ v' s', r = some (.exn .iosFailure, v', s') ∧ (v' = v ∨ m.eof = true ∧ v' = v.dropLast)
  | some (.ub u, v, _), r => if m.eof || m.fail then ∃ s', r = some (.exn .iosFailure, v, s') else ∃ s', r = some (.ub u, v, s')
  | some (.abort, _, _), _ => False

/-- How an item is read on a stream with failbit set. -/
def Stuck (m : Mask) : Option (Res T × IStream) → Option (Res T × IStream) → Prop
  | .none, _ => True
  | some (.ok _, s), r => s.failed = true ∧ (m.eof = false → m.fail = false → ∃ x s', r = some (.ok x, s') ∧ s'.failed = true)
  | some (.exn e, _), r => e = .iosFailure ∧ (m.eof = false → m.fail = false → ∃ s', r = some (.exn .iosFailure, s'))
  | some (.ub u, _), r => m.eof = false → m.fail = false → ∃ s', r = some (.ub u, s')
  | some (.abort, _), _ => False

/-- Readers of items compared. -/
structure Mirrors (m : Mask) (rd rdM : Rd T) : Prop where
  good : ∀ s, s.good = true → Like m (rd s) (rdM s)
  stuck : ∀ s, s.fail = true → s.bad = false → Stuck m (rd s) (rdM s)

/-- An operation leaves failbit set, and does not set badbit. -/
def KeepsFail (f : IStream → T × IStream) : Prop := ∀ s, s.fail = true → s.bad = false → (f s).2.fail = true ∧ (f s).2.bad = false

theorem hits_bad {m : Mask} {s : IStream} (h1 : m.eof = false) (h2 : m.fail = false) (h3 : s.bad = false) : m.hits s = false := by
  simp [Mask.hits, h1, h2, h3]

theorem mirrors_leaf (m : Mask) {f : IStream → T × IStream} (hf : KeepsFail f) : Mirrors m (leafM .none f) (leafM m f) := by
  refine ⟨?_, fun s h1 h2 => ?_⟩
  rotate_left
  · obtain ⟨h3, h4⟩ := hf s h1 h2
    simp only [leafM, guarded_none, Stuck]
    refine ⟨by simp [IStream.failed, h3], fun h5 h6 => ⟨(f s).1, (f s).2, ?_, by simp [IStream.failed, h3]⟩⟩
    rw [guarded_quiet (hits_bad h5 h6 h4)]
  intro s _
  simp only [leafM, guarded_none, Like]
  cases h : m.hits (f s).2 with
  | false => exact .inl ⟨by rw [guarded_quiet h], rfl⟩
  | true =>
    refine .inr ⟨?_, ?_, _, by rw [guarded_hit h]⟩
    · cases hg : (f s).2.good with
      | false => rfl
      | true => rw [hits_good m hg] at h; cases h
    · simp only [Mask.hits, Bool.or_eq_true, Bool.and_eq_true] at h
      simp only [IStream.failed, Bool.or_eq_true]
      rcases h with (h | h) | h
      · exact .inr h.1
      · exact .inl (.inl h.2)
      · exact .inl (.inr h.2)

theorem like_asItem {m : Mask} : ∀ {a b : Option (Res Unit × List T × IStream)}, LikeC m a b → Like m (asItem a) (asItem b)
  | .none, _, _ => trivial
  | some (.ok _, v, s), _, h => by
    obtain ⟨h1, rfl⟩ := h
    exact .inl ⟨rfl, hits_good m h1⟩
  | some (.exn _, _, _), _, h => by
    obtain ⟨h1, v', s', rfl, _⟩ := h
    exact ⟨h1, s', rfl⟩
  | some (.ub u, v, _), _, h => by
    simp only [LikeC] at h
    simp only [asItem, Like]
    split at h
    · obtain ⟨s', rfl⟩ := h
      simp_all
    · obtain ⟨s', rfl⟩ := h
      simp_all
  | some (.abort, _, _), _, h => h.elim

theorem loop_like {m : Mask} {rd rdM : Rd T} (hrd : Mirrors m rd rdM) {closing sep : Char} : ∀ (fuel : Nat) (c : Char) (v : List T) (s : IStream),
    s.good = true → LikeC m (readLoopM .none rd closing sep fuel c v s) (readLoopM m rdM closing sep fuel c v s) := by
  intro fuel
  induction fuel with
  | zero => intros; trivial
  | succ fuel ih =>
    intro c v s hs
    have he : s.eof = false := by simp [IStream.good] at hs; exact hs.1.1
    rw [readLoopM, readLoopM]
    by_cases hc : c = closing
    · simp only [hc, ne_eq, not_true, if_false]
      exact ⟨hs, rfl⟩
    simp only [ne_eq, hc, not_false_eq_true, if_true, he, Bool.false_eq_true, if_false]
    by_cases hsep : c = sep
    case neg =>
      simp only [hsep, not_false_eq_true, if_true]
      exact ⟨rfl, v, s, rfl, .inl rfl⟩
    simp only [hsep, not_true, if_false]
    have h0 := hrd.good s hs
    cases h1 : rd s with
    | none => trivial
    | some p =>
      obtain ⟨r, s1⟩ := p
      rw [h1] at h0
      cases r with
      | abort => exact h0.elim
      | exn e =>
        obtain ⟨rfl, s', h2⟩ := h0
        simp only [h2]
        exact ⟨rfl, v, s', rfl, .inl rfl⟩
      | ub u =>
        simp only [Like] at h0
        simp only [LikeC]
        split at h0
        · obtain ⟨s', h2⟩ := h0
          rw [if_pos (by assumption)]
          exact ⟨s', by rw [h2]⟩
        · obtain ⟨s', h2⟩ := h0
          rw [if_neg (by assumption)]
          exact ⟨s', by rw [h2]⟩
      | ok x =>
        simp only [Like] at h0
        rcases h0 with ⟨h2, hh⟩ | ⟨hg, hf, s', h2⟩
        · simp only [h2]
          cases hf : s1.failed with
          | true => simp only [if_true]; exact ⟨rfl, v, s1, rfl, .inl rfl⟩
          | false =>
            simp only [Bool.false_eq_true, if_false, guarded_none]
            rcases readChar_cases s1 with ⟨y, s2, _, hg2, _, h3⟩ | ⟨s2, hf2, he2, hn2, _, h3⟩
            · simp only [h3, guarded_quiet (r := (some y, s2)) (hits_good m hg2)]
              exact ih y (v ++ [x]) s2 hg2
            · simp only [h3]
              cases hq : m.hits s2 with
              | true =>
                simp only [guarded_hit (r := (some sep, s2)) hq]
                cases fuel with
                | zero => trivial
                | succ fuel =>
                  have hE : s2.eof = true := by
                    cases hg1 : s1.good with
                    | true => exact he2 hg1
                    | false =>
                      rw [hn2 hg1]
                      simp [IStream.good, IStream.failed] at hg1 hf
                      cases hh : s1.eof with
                      | true => rfl
                      | false => have := hg1 hh hf.1; rw [hf.2] at this; cases this
                  have hcl : sep ≠ closing := fun h => hc (hsep.trans h)
                  simp only [readLoopM, ne_eq, hcl, not_false_eq_true, if_true, hE]
                  exact ⟨rfl, _, _, rfl, .inl rfl⟩
              | false =>
                simp only [guarded_quiet (r := (some sep, s2)) hq]
                cases fuel with
                | zero => trivial
                | succ fuel =>
                  have hE : s2.eof = true := by
                    cases hg1 : s1.good with
                    | true => exact he2 hg1
                    | false =>
                      rw [hn2 hg1]
                      simp [IStream.good, IStream.failed] at hg1 hf
                      cases hh : s1.eof with
                      | true => rfl
                      | false => have := hg1 hh hf.1; rw [hf.2] at this; cases this
                  have hcl : sep ≠ closing := fun h => hc (hsep.trans h)
                  simp only [readLoopM, ne_eq, hcl, not_false_eq_true, if_true, hE]
                  exact ⟨rfl, _, _, rfl, .inl rfl⟩
        · simp only [h2]
          cases hff : s1.failed with
          | true => simp only [if_true]; exact ⟨rfl, v, s', rfl, .inl rfl⟩
          | false =>
            simp only [Bool.false_eq_true, if_false, guarded_none]
            have hm : m.eof = true := by rw [hff] at hf; rcases hf with h | h; cases h; exact h
            rw [readChar_notGood hg]
            cases fuel with
            | zero => trivial
            | succ fuel =>
              have hE : s1.eof = true := by
                simp [IStream.good, IStream.failed] at hg hff
                cases hh : s1.eof with
                | true => rfl
                | false => have := hg hh hff.1; rw [hff.2] at this; cases this
              have hcl : sep ≠ closing := fun h => hc (hsep.trans h)
              simp only [readLoopM, ne_eq, hcl, not_false_eq_true, if_true, hE]
              exact ⟨rfl, v, s', rfl, .inr ⟨hm, by simp⟩⟩

theorem rest_like {m : Mask} {rd rdM : Rd T} (hrd : Mirrors m rd rdM) {closing sep : Char} (fuel : Nat) (c : Char) (v : List T) (s : IStream)
    (hs : s.good = true) (hco : c ≠ closing) (hcl : sep ≠ closing) :
    LikeC m (readRestM .none fuel rd c s v closing sep) (readRestM m fuel rdM c s v closing sep) := by
  rw [readRestM, readRestM]
  rcases readChar_cases s with ⟨y, s2, _, hg2, hp, h3⟩ | ⟨s2, hf2, he2, _, hb2, h3⟩
  · simp only [h3, guarded_none, guarded_quiet (r := (some y, s2)) (hits_good m hg2), guarded_quiet (r := ((), s2.putback y)) (hits_good m hp)]
    split
    · exact loop_like hrd _ _ _ _ hp
    · exact loop_like hrd _ _ _ _ hg2
  · simp only [h3, guarded_none]
    have hp : s2.putback c = { s2 with eof := false } := putback_failed hf2 c
    have hbad : s2.bad = false := by rw [hb2]; simp [IStream.good] at hs; exact hs.2
    simp only [ne_eq, hco, not_false_eq_true, if_true, hp]
    have h0 := hrd.stuck { s2 with eof := false } hf2 hbad
    cases hm : (m.eof || m.fail) with
    | true =>
      have hq : m.hits s2 = true := by
        simp only [Bool.or_eq_true] at hm
        rcases hm with h | h <;> simp [Mask.hits, h, hf2, he2 hs]
      simp only [guarded_hit (r := (some c, s2)) hq]
      cases fuel with
      | zero => trivial
      | succ fuel =>
        simp only [readLoopM, ne_eq, hcl, not_false_eq_true, if_true, Bool.false_eq_true, if_false, not_true]
        cases h1 : rd { s2 with eof := false } with
        | none => trivial
        | some p =>
          obtain ⟨r, s1⟩ := p
          rw [h1] at h0
          cases r with
          | abort => exact h0.elim
          | exn e => exact ⟨h0.1, v, s2, rfl, .inl rfl⟩
          | ub u => simp only [LikeC, hm, if_true]; exact ⟨s2, rfl⟩
          | ok x =>
            simp only [h0.1, if_true]
            exact ⟨rfl, v, s2, rfl, .inl rfl⟩
    | false =>
      have hm' := hm
      simp only [Bool.or_eq_false_iff] at hm'
      obtain ⟨hme, hmf⟩ := hm'
      simp only [guarded_quiet (r := (some c, s2)) (hits_bad hme hmf hbad), hco, not_false_eq_true, if_true, hp,
        guarded_quiet (r := ((), ({ s2 with eof := false } : IStream))) (hits_bad hme hmf hbad)]
      cases fuel with
      | zero => trivial
      | succ fuel =>
        simp only [readLoopM, ne_eq, hcl, not_false_eq_true, if_true, Bool.false_eq_true, if_false, not_true]
        cases h1 : rd { s2 with eof := false } with
        | none => trivial
        | some p =>
          obtain ⟨r, s1⟩ := p
          rw [h1] at h0
          cases r with
          | abort => exact h0.elim
          | exn e =>
            obtain ⟨s', h2⟩ := h0.2 hme hmf
            simp only [h2]
            exact ⟨h0.1, v, s', rfl, .inl rfl⟩
          | ub u =>
            obtain ⟨s', h2⟩ := h0 hme hmf
            simp only [h2, LikeC, hm, Bool.false_eq_true, if_false]
            exact ⟨s', rfl⟩
          | ok x =>
            obtain ⟨y, s', h2, h4⟩ := h0.2 hme hmf
            simp only [h0.1, if_true, h2, h4]
            exact ⟨rfl, v, s', rfl, .inl rfl⟩

/-- The mask decides what becomes of undefined behaviour. -/
theorem sequence_like {m : Mask} {rd rdM : Rd T} (hrd : Mirrors m rd rdM) {opening closing sep : Char} (hoc : opening ≠ closing)
    (hcl : sep ≠ closing) (fuel : Nat) (v : List T) (s : IStream) (hs : s.good = true) :
    LikeC m (readSequenceM .none fuel rd s v opening closing sep) (readSequenceM m fuel rdM s v opening closing sep) := by
  rw [readSequenceM, readSequenceM]
  rcases readChar_cases s with ⟨y, s2, _, hg2, hp, h3⟩ | ⟨s2, hf2, he2, _, hb2, h3⟩
  · simp only [h3, guarded_none, guarded_quiet (r := (some y, s2)) (hits_good m hg2)]
    split
    · exact ⟨rfl, _, _, rfl, .inl rfl⟩
    · rename_i h
      exact rest_like hrd _ _ _ _ hg2 (fun h' => hoc ((Classical.not_not.1 h).symm.trans h')) hcl
  · have hbad : s2.bad = false := by rw [hb2]; simp [IStream.good] at hs; exact hs.2
    simp only [h3, guarded_none, LikeC]
    cases hm : (m.eof || m.fail) with
    | true =>
      have hq : m.hits s2 = true := by
        simp only [Bool.or_eq_true] at hm
        rcases hm with h | h <;> simp [Mask.hits, h, hf2, he2 hs]
      simp only [guarded_hit (r := ((.none : Option Char), s2)) hq, if_true]
      exact ⟨s2, rfl⟩
    | false =>
      simp only [Bool.or_eq_false_iff] at hm
      simp only [guarded_quiet (r := ((.none : Option Char), s2)) (hits_bad hm.1 hm.2 hbad), Bool.false_eq_true, if_false]
      exact ⟨s2, rfl⟩

/-- On a stream that is not good. -/
theorem sequence_stuck (m : Mask) (rd : Rd T) (opening closing sep : Char) (fuel : Nat) (v : List T) (s : IStream) (hs : s.good = false) :
    readSequenceM m fuel rd s v opening closing sep =
      some (if m.hits { s with fail := true } then .exn .iosFailure else .ub .indeterminate, [], { s with fail := true }) := by
  rw [readSequenceM, readChar_notGood hs]
  cases h : m.hits { s with fail := true } with
  | true => simp [guarded_hit (r := ((.none : Option Char), ({ s with fail := true } : IStream))) h]
  | false => simp [guarded_quiet (r := ((.none : Option Char), ({ s with fail := true } : IStream))) h]

theorem notGood {s : IStream} (h : s.fail = true) : s.good = false := by simp [IStream.good, h]

theorem mirrors_list {m : Mask} {rd rdM : Rd T} (hrd : Mirrors m rd rdM) {opening closing sep : Char} (hoc : opening ≠ closing)
    (hcl : sep ≠ closing) (fuel : Nat) :
    Mirrors m (fun s => asItem (readSequenceM .none fuel rd s [] opening closing sep))
      (fun s => asItem (readSequenceM m fuel rdM s [] opening closing sep)) := by
  refine ⟨fun s hs => like_asItem (sequence_like hrd hoc hcl fuel [] s hs), fun s hf hb => ?_⟩
  simp only [sequence_stuck _ _ _ _ _ _ _ s (notGood hf)]
  refine fun h1 h2 => ⟨{ s with fail := true }, ?_⟩
  have hq : m.hits { s with fail := true } = false := hits_bad h1 h2 hb
  simp only [hq, Bool.false_eq_true, if_false]
  rfl

theorem mirrors_nest {m : Mask} {rd rdM : Rd L} (hrd : Mirrors m rd rdM) (fuel : Nat) : ∀ d,
    Mirrors m (readNestM .none fuel rd d) (readNestM m fuel rdM d)
  | 0 => hrd
  | d + 1 => mirrors_list (mirrors_nest hrd fuel d) (by decide) (by decide) fuel

/-! ## Words -/

theorem get_cases (s : IStream) (hg : s.good = true) :
    (∃ x s', s'.good = true ∧ (s'.putback x).good = true ∧ ∀ c, s.get c = (some x, s')) ∨
    ∃ s', s'.fail = true ∧ s'.eof = true ∧ s'.bad = false ∧ ∀ c, s.get c = (c, s') := by
  have hg' := hg
  simp only [IStream.good, Bool.and_eq_true, Bool.not_eq_true'] at hg'
  obtain ⟨⟨h1, h2⟩, h3⟩ := hg'
  cases hr : s.rest with
  | nil =>
    refine .inr ⟨{ s with eof := true, fail := true }, rfl, rfl, h3, fun c => ?_⟩
    simp [IStream.get, sentry, hg, hr, extract]
  | cons x r =>
    refine .inl ⟨x, { s with before := x :: s.before, rest := r }, ?_, ?_, fun c => ?_⟩
    · simp [IStream.good, h1, h2, h3]
    · simp [IStream.good, putback, sentry, h2, h3]
    · simp [IStream.get, sentry, hg, hr, extract]

theorem bits_like (m : Mask) : ∀ (fuel : Nat) (c : Char) (w : BinWord.Word) (s : IStream), s.good = true → (s.putback c).good = true →
    Like m (asItem (readBitsM .none fuel c w s)) (asItem (readBitsM m fuel c w s)) := by
  intro fuel
  induction fuel with
  | zero => intros; trivial
  | succ fuel ih =>
    intro c w s hs hp
    rw [readBitsM, readBitsM]
    split
    · simp only [guarded_none]
      rcases get_cases s hs with ⟨x, s', hg, hpx, h3⟩ | ⟨s', hf, he, hb, h3⟩
      · simp only [h3, guarded_quiet (r := (some x, s')) (hits_good m hg)]
        exact ih _ _ _ hg hpx
      · simp only [h3]
        cases fuel with
        | zero => trivial
        | succ fuel =>
          have hfail : s'.failed = true := by simp [IStream.failed, hf]
          have hpb := putback_failed hf c
          have hl : readBitsM .none (fuel + 1) c (w ++ [if (c == '0') = true then false else true]) s' =
              some (.ok (), w ++ [if (c == '0') = true then false else true], { s' with eof := false }) := by
            simp [readBitsM, hfail, guarded_none, hpb]
          cases hm : (m.eof || m.fail) with
          | true =>
            have hq : m.hits s' = true := by
              simp only [Bool.or_eq_true] at hm
              rcases hm with h | h <;> simp [Mask.hits, h, hf, he]
            simp only [guarded_hit (r := (some c, s')) hq, hl]
            exact .inr ⟨by simp [IStream.good, hf], .inl hfail, s', rfl⟩
          | false =>
            simp only [Bool.or_eq_false_iff] at hm
            have hq := hits_bad hm.1 hm.2 hb
            have hq' : m.hits { s' with eof := false } = false := hits_bad hm.1 hm.2 hb
            have hl' : readBitsM m (fuel + 1) c (w ++ [if (c == '0') = true then false else true]) s' =
                some (.ok (), w ++ [if (c == '0') = true then false else true], { s' with eof := false }) := by
              simp [readBitsM, hfail, hpb, guarded_quiet (r := ((), ({ s' with eof := false } : IStream))) hq']
            simp only [guarded_quiet (r := (some c, s')) hq, hl, hl']
            exact .inl ⟨rfl, hq'⟩
    · simp only [guarded_none, guarded_quiet (r := ((), s.putback c)) (hits_good m hp)]
      exact .inl ⟨rfl, hits_good m hp⟩

theorem word_stuck (m : Mask) (fuel : Nat) (w : BinWord.Word) (s : IStream) (hs : s.good = false) :
    readWordM m fuel s w =
      some (if m.hits { s with fail := true } then .exn .iosFailure else .ub .indeterminate, [], { s with fail := true }) := by
  rw [readWordM, readChar_notGood hs]
  cases h : m.hits { s with fail := true } with
  | true => simp [guarded_hit (r := ((.none : Option Char), ({ s with fail := true } : IStream))) h]
  | false => simp [guarded_quiet (r := ((.none : Option Char), ({ s with fail := true } : IStream))) h]

theorem keepsFail_sentry {T : Type} {f : IStream → T × IStream} (h : ∀ s, s.good = false → (f s).2 = { s with fail := true }) : KeepsFail f :=
  fun s hf hb => by rw [h s (notGood hf)]; exact ⟨rfl, hb⟩

theorem keepsFail_int (lo hi x : Int) : KeepsFail fun s => s.readInt lo hi x := keepsFail_sentry fun s h => by simp [readInt, sentry, h]
theorem keepsFail_bool (b : Bool) : KeepsFail fun s => s.readBool b := keepsFail_sentry fun s h => by simp [readBool, sentry, h]

theorem mirrors_word (m : Mask) (fuel : Nat) : Mirrors m (wordM .none fuel) (wordM m fuel) := by
  refine ⟨fun s hs => ?_, fun s hf hb => ?_⟩
  · simp only [wordM, readWordM]
    rcases readChar_cases s with ⟨y, s2, _, hg2, hp, h3⟩ | ⟨s2, hf2, he2, _, hb2, h3⟩
    · simp only [h3, guarded_none, guarded_quiet (r := (some y, s2)) (hits_good m hg2), guarded_quiet (r := ((), s2.putback y)) (hits_good m hp)]
      split
      · exact like_asItem (sequence_like (mirrors_leaf m (keepsFail_bool false)) (by decide) (by decide) _ _ _ hp)
      · exact bits_like m _ _ _ _ hg2 hp
    · have hbad : s2.bad = false := by rw [hb2]; simp [IStream.good] at hs; exact hs.2
      simp only [h3, guarded_none]
      cases hm : (m.eof || m.fail) with
      | true =>
        have hq : m.hits s2 = true := by
          simp only [Bool.or_eq_true] at hm
          rcases hm with h | h <;> simp [Mask.hits, h, hf2, he2 hs]
        simp only [guarded_hit (r := ((.none : Option Char), s2)) hq, asItem, Like, hm, if_true]
        exact ⟨s2, rfl⟩
      | false =>
        have hm' := hm
        simp only [Bool.or_eq_false_iff] at hm'
        simp only [guarded_quiet (r := ((.none : Option Char), s2)) (hits_bad hm'.1 hm'.2 hbad), asItem, Like, hm, Bool.false_eq_true, if_false]
        exact ⟨s2, rfl⟩
  · simp only [wordM, word_stuck _ _ _ s (notGood hf)]
    refine fun h1 h2 => ⟨{ s with fail := true }, ?_⟩
    have hq : m.hits { s with fail := true } = false := hits_bad h1 h2 hb
    simp only [hq, Bool.false_eq_true, if_false]
    rfl

/-- The word that has been read when the reader stops, and how it stops: at the end of the text by an exception if eofbit or failbit are in
the mask. -/
theorem bits_run (m : Mask) {tail : List Char} (htail : ∀ y t, tail = y :: t → ¬ BinWord.IsBit y) :
    ∀ (ds : List Char), (∀ c ∈ ds, BinWord.IsBit c) → ∀ (c : Char), BinWord.IsBit c → ∀ (s : IStream) (w : BinWord.Word)
      (fuel : Nat), s.Plain → s.rest = ds ++ tail → ds.length + 1 < fuel →
      (tail = [] → (m.eof || m.fail) = true → ∃ s', readBitsM m fuel c w s = some (.exn .iosFailure, w ++ (c :: ds).map BinWord.bitOf, s')) ∧
      (tail ≠ [] ∨ (m.eof || m.fail) = false → readBitsM m fuel c w s = some (.ok (), w ++ (c :: ds).map BinWord.bitOf, BinWord.after s ds tail)) := by
  intro ds
  induction ds with
  | nil =>
    intro _ c hc s w fuel hs hr hf
    obtain ⟨fuel, rfl⟩ : ∃ k, fuel = k + 2 := ⟨fuel - 2, by simp at hf; omega⟩
    have hnf : s.failed = false := by simp [IStream.failed, hs.fail, hs.bad]
    have hcb := BinWord.isBit_bool.1 hc
    cases tail with
    | nil =>
      constructor
      · intro _ hm
        have hq : m.hits { s with eof := true, fail := true } = true := by
          simp only [Bool.or_eq_true] at hm
          rcases hm with h | h <;> simp [Mask.hits, h]
        refine ⟨{ s with eof := true, fail := true }, ?_⟩
        rw [readBitsM]
        simp only [hnf, hcb, BinWord.get_nil hs hr, BinWord.bitOf_eq hc, guarded_hit (r := (some c, ({ s with eof := true, fail := true } : IStream))) hq]
        simp
      · intro hm
        rcases hm with hm | hm
        · exact absurd rfl hm
        simp only [Bool.or_eq_false_iff] at hm
        have hq : m.hits { s with eof := true, fail := true } = false := hits_bad hm.1 hm.2 hs.bad
        have hq' : m.hits { s with eof := false, fail := true } = false := hits_bad hm.1 hm.2 hs.bad
        rw [readBitsM]
        simp only [hnf, hcb, BinWord.get_nil hs hr, BinWord.bitOf_eq hc, guarded_quiet (r := (some c, ({ s with eof := true, fail := true } : IStream))) hq]
        simp only [Bool.not_false, Bool.and_self, if_true]
        rw [readBitsM]
        simp only [List.nil_append] at hr
        simp only [IStream.failed, Bool.true_or, Bool.not_true, Bool.false_and, Bool.false_eq_true, if_false, putback_failed (s := { s with eof := true, fail := true }) rfl]
        rw [guarded_quiet (r := ((), ({ s with eof := false, fail := true } : IStream))) hq']
        simp [BinWord.after, adv, hs.eof, hr]
    | cons y t =>
      refine ⟨by simp, fun _ => ?_⟩
      have hyb : (y == '0' || y == '1') = false := by
        have := htail y t rfl
        rw [BinWord.isBit_bool] at this
        simpa using this
      have hg := (adv_plain hs [y] t).good
      have hpb : (s.adv [y] t).putback y = s.adv [] (y :: t) := putback_adv hs [] y t
      rw [readBitsM]
      simp only [hnf, hcb, BinWord.get_cons hs hr, BinWord.bitOf_eq hc, guarded_quiet (r := (some y, s.adv [y] t)) (hits_good m hg)]
      simp only [Bool.not_false, Bool.and_self, if_true]
      rw [readBitsM]
      simp only [hyb, Bool.and_false, Bool.false_eq_true, if_false, hpb,
        guarded_quiet (r := ((), s.adv [] (y :: t))) (hits_good m (adv_plain hs [] (y :: t)).good), BinWord.after_cons hs]
      simp
  | cons d ds ih =>
    intro hds c hc s w fuel hs hr hf
    obtain ⟨fuel, rfl⟩ : ∃ k, fuel = k + 1 := ⟨fuel - 1, by simp at hf; omega⟩
    have hnf : s.failed = false := by simp [IStream.failed, hs.fail, hs.bad]
    have hcb := BinWord.isBit_bool.1 hc
    have hr' : s.rest = d :: (ds ++ tail) := hr
    obtain ⟨h1, h2⟩ := ih (fun c hc => hds c (List.mem_cons_of_mem _ hc)) d (hds d (by simp))
      (s.adv [d] (ds ++ tail)) (w ++ [BinWord.bitOf c]) fuel (adv_plain hs _ _) rfl (by simp at hf; omega)
    have hg := (adv_plain hs [d] (ds ++ tail)).good
    have hstep : readBitsM m (fuel + 1) c w s = readBitsM m fuel d (w ++ [BinWord.bitOf c]) (s.adv [d] (ds ++ tail)) := by
      rw [readBitsM]
      simp only [hnf, hcb, BinWord.get_cons hs hr', BinWord.bitOf_eq hc, guarded_quiet (r := (some d, s.adv [d] (ds ++ tail))) (hits_good m hg)]
      simp
    refine ⟨fun ht hm => ?_, fun hm => ?_⟩
    · obtain ⟨s', h⟩ := h1 ht hm
      exact ⟨s', by rw [hstep, h]; simp⟩
    · rw [hstep, h2 hm]
      simp [BinWord.after, adv]

end Helper.Seq.Mask
