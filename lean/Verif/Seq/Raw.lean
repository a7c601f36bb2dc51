import Verif.Seq.Ends
import Verif.Seq.Chars
set_option linter.unusedSectionVars false
/-!
# C136, lemmas: the readers on a stream with `std::noskipws` compared with those on other streams

The flag is part of the model of streams (`IStream.skipws`), so the readers are those of C18–C22, C82 and C13–C15.
-/
namespace Helper.Seq.Raw
open IStream

variable {T L : Type}

/-- Specification: the stream after `is >> std::noskipws`. -/
def raw (s : IStream) : IStream := { s with skipws := false }

/-- Specification: a text without blanks. -/
def NoBlank (t : List Char) : Prop := ∀ c ∈ t, isSpace c = false

/-- Specification: the text consumed between two states of a stream. -/
def took (s s' : IStream) : List Char := s.rest.take (s.rest.length - s'.rest.length)

instance (t : List Char) : Decidable (NoBlank t) := inferInstanceAs (Decidable (∀ c ∈ t, isSpace c = false))

theorem took_eq {s s' : IStream} {t : List Char} (h : s.rest = t ++ s'.rest) : took s s' = t := by
  simp [took, h]

theorem took_trans {s s1 s2 : IStream} (h1 : s1.rest <:+ s.rest) (h2 : s2.rest <:+ s1.rest) : took s s2 = took s s1 ++ took s1 s2 := by
  obtain ⟨t1, h1⟩ := h1
  obtain ⟨t2, h2⟩ := h2
  rw [took_eq h1.symm, took_eq h2.symm]
  exact took_eq (by rw [← h1, ← h2, List.append_assoc])

theorem noBlank_append {a b : List Char} : NoBlank (a ++ b) ↔ NoBlank a ∧ NoBlank b := by
  simp only [NoBlank, List.mem_append]
  exact ⟨fun h => ⟨fun c hc => h c (.inl hc), fun c hc => h c (.inr hc)⟩, fun h c hc => hc.elim (h.1 c) (h.2 c)⟩

/-- An item is rejected, or the stream is left before a blank, which the reader of the list rejects. -/
def Rejected (r : Option (Res (T × IStream))) : Prop :=
  r = some (.exn .iosFailure) ∨ ∃ x s, r = some (.ok (x, s)) ∧
    (s.failed = true ∨ s.good = true ∧ s.skipws = false ∧ ∃ b t, s.rest = b :: t ∧ isSpace b = true)

/-- How something is read without skipping blanks (`r`) compared with reading it otherwise (the first result). -/
def Sim (P : Option (Res (T × IStream)) → Prop) (s : IStream) : Option (Res (T × IStream)) → Option (Res (T × IStream)) → Prop
  | none, _ => True
  | some (.ok (x, s')), r => (s'.failed = true → P r) ∧ (s'.failed = false → s'.rest <:+ s.rest ∧ s'.skipws = true ∧
      (NoBlank (took s s') ∧ r = some (.ok (x, raw s')) ∨ ¬ NoBlank (took s s') ∧ P r))
  | some (.exn _), r => P r
  | some (.ub u), r => r = some (.ub u) ∨ P r
  | some .abort, _ => False

/-- Throws. -/
def Throws (r : Option (Res (T × IStream))) : Prop := r = some (.exn .iosFailure)

theorem Sim.mono {P Q : Option (Res (T × IStream)) → Prop} (h : ∀ r, P r → Q r) {s : IStream} : ∀ {a b : Option (Res (T × IStream))}, Sim P s a b → Sim Q s a b
  | none, _, _ => trivial
  | some (.ok _), _, hs => ⟨fun hf => h _ (hs.1 hf), fun hf => ⟨(hs.2 hf).1, (hs.2 hf).2.1, (hs.2 hf).2.2.imp id fun ⟨h1, h2⟩ => ⟨h1, h _ h2⟩⟩⟩
  | some (.exn _), _, hs => h _ hs
  | some (.ub _), _, hs => hs.imp id (h _)
  | some .abort, _, hs => hs.elim

/-- The text consumed before does not hold blanks. -/
theorem Sim.before {P : Option (Res (T × IStream)) → Prop} {s s1 : IStream} (h1 : s1.rest <:+ s.rest) (hn : NoBlank (took s s1)) :
    ∀ {a b : Option (Res (T × IStream))}, Sim P s1 a b → Sim P s a b
  | none, _, _ => trivial
  | some (.ok (x, s')), _, hs => ⟨hs.1, fun hf => by
      obtain ⟨h2, h3, h4⟩ := hs.2 hf
      refine ⟨List.IsSuffix.trans h2 h1, h3, ?_⟩
      rw [took_trans h1 h2, noBlank_append]
      rcases h4 with ⟨h4, h5⟩ | ⟨h4, h5⟩
      · exact .inl ⟨⟨hn, h4⟩, h5⟩
      · exact .inr ⟨fun h => h4 h.2, h5⟩⟩
  | some (.exn _), _, hs => hs
  | some (.ub _), _, hs => hs
  | some .abort, _, hs => hs.elim

/-- The text consumed before holds a blank, and the reader that does not skip blanks throws. -/
theorem Sim.blank {P Q : Option (Res (T × IStream)) → Prop} {s s1 : IStream} (h1 : s1.rest <:+ s.rest) (hn : ¬ NoBlank (took s s1))
    {r : Option (Res (T × IStream))} (hr : Q r) :
    ∀ {a b : Option (Res (T × IStream))}, Sim P s1 a b → Sim Q s a r
  | none, _, _ => trivial
  | some (.ok (x, s')), _, hs => ⟨fun _ => hr, fun hf => by
      obtain ⟨h2, h3, h4⟩ := hs.2 hf
      refine ⟨List.IsSuffix.trans h2 h1, h3, .inr ⟨?_, hr⟩⟩
      rw [took_trans h1 h2, noBlank_append]
      exact fun h => hn h.1⟩
  | some (.exn _), _, _ => hr
  | some (.ub _), _, _ => .inr hr
  | some .abort, _, hs => hs.elim

theorem suffix_dropWhile (p : Char → Bool) (l : List Char) : l.dropWhile p <:+ l := List.dropWhile_suffix p

theorem readChar_noskip {s : IStream} (hg : s.good = true) (hk : s.skipws = false) (c : Option Char) : s.readChar c = s.extract c := by
  simp [readChar, sentry, hg, hk]

theorem putback_raw (s : IStream) (c : Char) : (raw s).putback c = raw (s.putback c) := by
  obtain ⟨b, r, e, f, bd, a, k⟩ := s
  cases f <;> cases bd <;> cases b <;> simp [putback, sentry, raw, IStream.good]
  split <;> rfl

/-- `is.putback(c)` after `c` has been read. -/
theorem putback_read {s : IStream} (hg : s.good = true) {c : Char} {b r : List Char} (e : s.eof = false) :
    ({ s with before := c :: b, rest := r } : IStream).putback c = { s with before := b, rest := c :: r } := by
  simp only [IStream.good, Bool.and_eq_true, Bool.not_eq_true'] at hg
  simp [putback, sentry, IStream.good, hg.1.2, hg.2, e]

/-- What is known after a character has been read. -/
structure Read (s' : IStream) (x : Option Char) (Q : IStream → Prop) : Prop where
  some : ∀ z, x = some z → s'.good = true ∧ (s'.putback z).good = true ∧ (s'.putback z).skipws = true ∧ Q (s'.putback z)
  back : ∀ z, x = Option.some z → (s'.putback z).rest = z :: s'.rest
  none : x = none → s'.fail = true

/-- Reading a character without skipping blanks: as with skipping, or the character is a blank. -/
theorem readChar_raw (s : IStream) (hk : s.skipws = true) :
    (∃ s' x, Read s' x (fun p => p.rest = s.rest) ∧ (∀ c, s.readChar c = (x.or c, s') ∧ (raw s).readChar c = (x.or c, raw s')) ∧
      s'.rest <:+ s.rest ∧ s'.skipws = true ∧ NoBlank (took s s')) ∨
    ∃ b s' s3 x, Read s' x (fun p => p.rest <:+ s.rest ∧ ¬ NoBlank (took s p)) ∧ s3.eof = false ∧ isSpace b = true ∧
      (s3.putback b = raw s ∧ (raw s).good = true ∧ ∃ t, s.rest = b :: t) ∧ s'.rest <:+ s.rest ∧ s'.skipws = true ∧ ¬ NoBlank (took s s') ∧
      (∀ c, s.readChar c = (x.or c, s')) ∧ ∀ c, (raw s).readChar c = (some b, s3) := by
  cases hg : s.good with
  | false =>
    refine .inl ⟨{ s with fail := true }, none, ⟨by simp, by simp, fun _ => rfl⟩, fun c => ⟨by rw [readChar_notGood hg]; rfl, ?_⟩, List.suffix_rfl, hk, ?_⟩
    · rw [readChar_notGood (by exact hg)]; rfl
    · simp [took, NoBlank]
  | true =>
    have hg2 : (raw s).good = true := hg
    have hk2 : (raw s).skipws = false := rfl
    have he : s.eof = false := by simp [IStream.good] at hg; exact hg.1.1
    cases hr : s.rest with
    | nil =>
      refine .inl ⟨{ s with eof := true, fail := true }, none, ⟨by simp, by simp, fun _ => rfl⟩, fun c => ⟨?_, ?_⟩, by rw [← hr]; exact List.suffix_rfl, hk, ?_⟩
      · have : s.skipBlanks = s := by cases s; simp at hr; subst hr; rfl
        simp [readChar, sentry, hg, hk, this, hr]
      · rw [readChar_noskip hg2 hk2, extract, show (raw s).rest = [] from hr]; simp [raw, hr]
      · simp [took, NoBlank, hr]
    | cons y r =>
      have hraw : ∀ c, (raw s).readChar c = (some y, { raw s with before := y :: s.before, rest := r }) := fun c => by
        rw [readChar_noskip hg2 hk2, extract, show (raw s).rest = y :: r from hr]; rfl
      cases hy : isSpace y with
      | false =>
        have hpb : ({ s with before := y :: s.before, rest := r } : IStream).putback y = s := by
          rw [putback_read hg he, ← hr]
        refine .inl ⟨{ s with before := y :: s.before, rest := r }, some y, ⟨fun z hz => ?_, fun z hz => (by cases hz; rw [hpb, hr]), by simp⟩, fun c => ⟨?_, hraw c⟩, by simp, hk, ?_⟩
        · cases hz
          rw [hpb]
          exact ⟨hg, hg, hk, hr⟩
        · simp [readChar, sentry, hg, hk, skipBlanks, hr, hy, extract]
        · rw [took_eq (t := [y]) (by rw [hr]; rfl)]
          simpa [NoBlank] using hy
      | true =>
        right
        have hback : ({ raw s with before := y :: s.before, rest := r } : IStream).putback y = raw s := by
          rw [putback_read hg2 he]
          simp [raw, hr]
        have hnb : ∀ (p : IStream) (t : List Char), s.rest = t ++ p.rest → y ∈ t → ¬ NoBlank (took s p) := by
          intro p t ht hyt h
          rw [took_eq ht] at h
          have := h y hyt
          rw [hy] at this; cases this
        have hsplit := List.takeWhile_append_dropWhile (p := isSpace) (l := s.rest)
        have hyt : y ∈ s.rest.takeWhile isSpace := by rw [hr]; simp [hy]
        cases hd : s.rest.dropWhile isSpace with
        | nil =>
          refine ⟨y, { s.skipBlanks with eof := true, fail := true }, _, none, ⟨by simp, by simp, fun _ => rfl⟩, by exact he, hy, ⟨hback, hg2, r, rfl⟩, ?_, hk, ?_, fun c => ?_, hraw⟩
          · rw [← hr]; exact suffix_dropWhile _ _
          · exact hnb _ (s.rest.takeWhile isSpace) hsplit.symm hyt
          · simp [readChar, sentry, hg, hk, skipBlanks, hd]
        | cons z q =>
          have hpb : ({ s.skipBlanks with before := z :: s.skipBlanks.before, rest := q } : IStream).putback z = s.skipBlanks := by
            rw [putback_read (s := s.skipBlanks) hg he]
            simp [skipBlanks, hd]
          refine ⟨y, { s.skipBlanks with before := z :: s.skipBlanks.before, rest := q }, _, some z, ⟨fun z' hz => ?_, fun z' hz => (by cases hz; rw [hpb]; exact hd), by simp⟩, by exact he, hy,
            ⟨hback, hg2, r, rfl⟩, ?_, hk, ?_, fun c => ?_, hraw⟩
          · cases hz
            rw [hpb]
            exact ⟨hg, hg, hk, by rw [← hr]; exact suffix_dropWhile _ _, hnb _ (s.rest.takeWhile isSpace) hsplit.symm hyt⟩
          · rw [← hr]
            exact List.IsSuffix.trans (l₂ := z :: q) ⟨[z], rfl⟩ (hd ▸ suffix_dropWhile isSpace s.rest)
          · refine hnb _ (s.rest.takeWhile isSpace ++ [z]) ?_ (List.mem_append_left _ hyt)
            rw [List.append_assoc]
            show s.rest = _ ++ (z :: q)
            rw [← hd, hsplit]
          · simp [readChar, sentry, hg, hk, skipBlanks, hd, extract]

/-- The readers `rd` of items on a stream that skips blanks, `rd'` on one that does not. -/
def Follows (P : Option (Res (T × IStream)) → Prop) (rd rd' : IStream → Option (Res (T × IStream))) : Prop :=
  ∀ s, s.skipws = true → Sim P s (rd s) (rd' (raw s))

theorem raw_failed (s : IStream) : (raw s).failed = s.failed := rfl

/-- After a rejected item the loop throws. -/
theorem loop_rejected {rd' : IStream → Option (Res (T × IStream))} {closing sep : Char} (hc : isSpace closing = false) (hsp : isSpace sep = false)
    (hcs : sep ≠ closing) {fuel : Nat} {v : List T} {s : IStream} (he : s.eof = false) (h : Rejected (rd' s)) :
    readLoopX rd' closing sep (fuel + 2) sep v s = some (.exn .iosFailure) := by
  rw [readLoopX]
  simp only [ne_eq, hcs, not_false_eq_true, if_true, he, Bool.false_eq_true, if_false, not_true]
  rcases h with h | ⟨x, s1, h, hf | ⟨hg, hk, b, t, hr, hb⟩⟩
  · rw [h]
  · rw [h]; simp [hf]
  · have hnf : s1.failed = false := by
      simp [IStream.good] at hg
      simp [IStream.failed, hg.1.2, hg.2]
    have he1 : s1.eof = false := by simp [IStream.good] at hg; exact hg.1.1
    have h3 : s1.readChar (some sep) = (some b, { s1 with before := b :: s1.before, rest := t }) := by
      simp [readChar, sentry, hg, hk, hr, extract]
    have hb1 : b ≠ closing := fun h => by rw [h, hc] at hb; cases hb
    have hb2 : b ≠ sep := fun h => by rw [h, hsp] at hb; cases hb
    rw [h]
    simp only [hnf, Bool.false_eq_true, if_false, h3]
    rw [readLoopX]
    simp [hb1, hb2, he1]

theorem loop_raw {rd rd' : IStream → Option (Res (T × IStream))} (hrd : Follows Rejected rd rd') {closing sep : Char} (hc : isSpace closing = false)
    (hsp : isSpace sep = false) : ∀ (fuel : Nat) (c : Char) (v : List T) (s : IStream), s.skipws = true → (c = closing → s.failed = false) → ∀ k, fuel < k →
      Sim Throws s (readLoopX rd closing sep fuel c v s) (readLoopX rd' closing sep k c v (raw s)) := by
  intro fuel
  induction fuel with
  | zero => intros; exact trivial
  | succ fuel ih =>
    intro c v s hk hcf k hkf
    obtain ⟨k, rfl⟩ : ∃ j, k = j + 2 := ⟨k - 2, by omega⟩
    by_cases h1 : c = closing
    · have ha : readLoopX rd closing sep (fuel + 1) c v s = some (.ok (v, s)) := by rw [readLoopX]; simp [h1]
      have hb : readLoopX rd' closing sep (k + 2) c v (raw s) = some (.ok (v, raw s)) := by rw [readLoopX]; simp [h1]
      rw [ha, hb]
      refine ⟨fun h => (by rw [hcf h1] at h; cases h), fun _ => ⟨List.suffix_rfl, hk, .inl ⟨by simp [took, NoBlank], rfl⟩⟩⟩
    cases h2 : s.eof with
    | true =>
      rw [readLoopX, readLoopX]
      simp only [h1, show (raw s).eof = true from h2, h2, ne_eq, not_false_eq_true, if_true]
      exact rfl
    | false =>
    have h2' : (raw s).eof = false := h2
    by_cases h3 : c = sep
    case neg =>
      rw [readLoopX, readLoopX]
      simp only [h1, h2, h2', h3, ne_eq, not_false_eq_true, if_true]
      exact rfl
    subst h3
    have h0 := hrd s hk
    have hrej : Rejected (rd' (raw s)) → readLoopX rd' closing c (k + 2) c v (raw s) = some (.exn .iosFailure) :=
      loop_rejected hc hsp h1 h2'
    rw [readLoopX]
    simp only [h1, h2, ne_eq, not_false_eq_true, if_true, not_true, if_false, Bool.false_eq_true]
    cases h4 : rd s with
    | none => trivial
    | some r =>
      rw [h4] at h0
      cases r with
      | exn e => exact hrej h0
      | ub u =>
        rcases h0 with h0 | h0
        · left; rw [readLoopX]; simp [h1, h2', h0]
        · exact .inr (hrej h0)
      | abort => exact h0.elim
      | ok p =>
        obtain ⟨x, s1⟩ := p
        simp only
        cases h5 : s1.failed with
        | true => simp only [if_true]; exact hrej (h0.1 h5)
        | false =>
          simp only [Bool.false_eq_true, if_false]
          obtain ⟨h6, h7, h8⟩ := h0.2 h5
          have hclose : ∀ (y : Option Char) (s2 : IStream) (c' : Char) (Q : IStream → Prop), Read s2 y Q → y.or (some c) = some c' →
              c' = closing → s2.failed = false := by
            intro y s2 c' Q hg hc' hcc
            cases y with
            | none => simp at hc'; exact absurd (hc'.trans hcc) h1
            | some z =>
              have := (hg.some z rfl).1
              simp [IStream.good] at this
              simp [IStream.failed, this.1.2, this.2]
          rcases readChar_raw s1 h7 with ⟨s2, y, hg, hy, h9, h10, h11⟩ | ⟨b, s2, s3, y, hg, he3, hb, _, h9, h10, h11, hy, hraw⟩
          · have hy1 := (hy (some c)).1
            have hy2 := (hy (some c)).2
            obtain ⟨c', hc'⟩ : ∃ c', y.or (some c) = some c' := by cases y <;> exact ⟨_, rfl⟩
            rw [hc'] at hy1 hy2
            simp only [hy1]
            have hih := ih c' (v ++ [x]) s2 h10 (hclose y s2 c' _ hg hc') (k + 1) (by omega)
            have hs2 : s2.rest <:+ s.rest := List.IsSuffix.trans h9 h6
            rcases h8 with ⟨h8, h12⟩ | ⟨h8, h12⟩
            · have hstep : readLoopX rd' closing c (k + 2) c v (raw s) = readLoopX rd' closing c (k + 1) c' (v ++ [x]) (raw s2) := by
                rw [readLoopX]
                simp only [ne_eq, h1, not_false_eq_true, if_true, h2', Bool.false_eq_true, if_false, not_true, h12, raw_failed, h5, hy2]
              rw [hstep]
              refine Sim.before hs2 ?_ hih
              rw [took_trans h6 h9, noBlank_append]
              exact ⟨h8, h11⟩
            · refine Sim.blank (Q := Throws) hs2 ?_ (hrej h12) hih
              rw [took_trans h6 h9, noBlank_append]
              exact fun h => h8 h.1
          · obtain ⟨c', hc'⟩ : ∃ c', y.or (some c) = some c' := by cases y <;> exact ⟨_, rfl⟩
            have hy1 := hy (some c)
            rw [hc'] at hy1
            simp only [hy1]
            have hih := ih c' (v ++ [x]) s2 h10 (hclose y s2 c' _ hg hc') (k + 1) (by omega)
            have hs2 : s2.rest <:+ s.rest := List.IsSuffix.trans h9 h6
            refine Sim.blank hs2 ?_ ?_ hih
            · rw [took_trans h6 h9, noBlank_append]
              exact fun h => h11 h.2
            · rcases h8 with ⟨h8, h12⟩ | ⟨h8, h12⟩
              · show readLoopX rd' closing c (k + 2) c v (raw s) = some (.exn .iosFailure)
                have hb1 : b ≠ closing := fun h => by rw [h, hc] at hb; cases hb
                have hb2 : b ≠ c := fun h => by rw [h, hsp] at hb; cases hb
                rw [readLoopX]
                simp only [ne_eq, h1, not_false_eq_true, if_true, h2', Bool.false_eq_true, if_false, not_true, h12, raw_failed, h5, hraw]
                rw [readLoopX]
                simp [hb1, hb2, he3]
              · exact hrej h12

/-- An item that begins with a blank is rejected. -/
def NoStart (rd' : IStream → Option (Res (T × IStream))) : Prop :=
  ∀ s b t, s.good = true → s.skipws = false → s.rest = b :: t → isSpace b = true → Rejected (rd' s)

theorem sequence_raw {rd rd' : IStream → Option (Res (T × IStream))} (hrd : Follows Rejected rd rd') (hst : NoStart rd') {opening closing sep : Char}
    (ho : isSpace opening = false) (hc : isSpace closing = false) (hsp : isSpace sep = false) (hoc : opening ≠ closing) (hcs : sep ≠ closing)
    (fuel k : Nat) (hk2 : fuel + 2 ≤ k) :
    Follows Throws (fun s => readSequenceX fuel rd s opening closing sep) (fun s => readSequenceX k rd' s opening closing sep) := by
  intro s hs
  have hk : fuel < k := by omega
  simp only
  have hend : ∀ {x : Option Char} {s2 : IStream} {Q : IStream → Prop}, Read s2 x Q → x = none → (s2.putback opening) = { s2 with eof := false } :=
    fun h hx => putback_failed (h.none hx) _
  have hgood : ∀ {s : IStream}, s.good = true → s.failed = false := fun {s} h => by
    simp [IStream.good] at h; simp [IStream.failed, h.1.2, h.2]
  rw [readSequenceX, readSequenceX]
  rcases readChar_raw s hs with ⟨s2, y, hg, hy, h9, h10, h11⟩ | ⟨b, s2, s3, y, hg, he3, hb, _, h9, h10, h11, hy, hraw⟩
  · simp only [(hy none).1, (hy none).2]
    cases y with
    | none => exact .inl rfl
    | some y =>
      simp only [Option.some_or]
      by_cases h1 : y = opening
      case neg => simp only [h1, ne_eq, not_false_eq_true, if_true]; exact rfl
      subst h1
      simp only [ne_eq, not_true, if_false]
      refine Sim.before h9 h11 ?_
      rcases readChar_raw s2 h10 with ⟨s4, z, hg4, hz, h12, h13, h14⟩ | ⟨b, s4, s3, z, hg4, he3, hb, ⟨hp3, hg3, t, ht⟩, h12, h13, h14, hz, hraw⟩
      · simp only [(hz (some y)).1, (hz (some y)).2]
        cases z with
        | none =>
          simp only [Option.none_or, hoc, not_false_eq_true, if_true, putback_raw]
          have hp := hend hg4 rfl
          refine Sim.before (s1 := s4.putback y) (by rw [hp]; exact h12) ?_ (loop_raw hrd hc hsp _ _ _ _ (by rw [hp]; exact h13) (fun h => absurd h hcs) _ hk)
          rw [hp]; exact h14
        | some z =>
          simp only [Option.some_or]
          obtain ⟨h15, h16, h17, h18⟩ := hg4.some z rfl
          by_cases h2 : z = closing
          · simp only [h2, not_true, if_false]
            exact Sim.before h12 h14 (loop_raw hrd hc hsp _ _ _ _ h13 (fun _ => hgood h15) _ hk)
          · simp only [h2, not_false_eq_true, if_true, putback_raw]
            refine Sim.before (s1 := s4.putback z) (by rw [h18]; exact List.suffix_rfl) ?_
              (loop_raw hrd hc hsp _ _ _ _ h17 (fun h => absurd h hcs) _ hk)
            simp [took, h18, NoBlank]
      · have hb1 : b ≠ closing := fun h => by rw [h, hc] at hb; cases hb
        simp only [hz (some y), hraw (some y), hb1, not_false_eq_true, if_true, hp3]
        have hR : Throws (readLoopX rd' closing sep k sep [] (raw s2)) := by
          obtain ⟨k, rfl⟩ : ∃ j, k = j + 2 := ⟨k - 2, by omega⟩
          have he : (raw s2).eof = false := by simp [IStream.good] at hg3; exact hg3.1.1
          exact loop_rejected hc hsp hcs he (hst _ b t hg3 rfl ht hb)
        cases z with
        | none =>
          simp only [Option.none_or, hoc, not_false_eq_true, if_true]
          have hp := hend hg4 rfl
          refine Sim.blank (s1 := s4.putback y) (by rw [hp]; exact h12) ?_ hR
            (loop_raw hrd hc hsp _ _ _ _ (by rw [hp]; exact h13) (fun h => absurd h hcs) _ hk)
          rw [hp]; exact h14
        | some z =>
          simp only [Option.some_or]
          obtain ⟨h15, h16, h17, h18, h19⟩ := hg4.some z rfl
          by_cases h2 : z = closing
          · simp only [h2, not_true, if_false]
            exact Sim.blank h12 h14 hR (loop_raw hrd hc hsp _ _ _ _ h13 (fun _ => hgood h15) _ hk)
          · simp only [h2, not_false_eq_true, if_true]
            exact Sim.blank h18 h19 hR (loop_raw hrd hc hsp _ _ _ _ h17 (fun h => absurd h hcs) _ hk)
  · have hb1 : b ≠ opening := fun h => by rw [h, ho] at hb; cases hb
    simp only [hraw none, hb1, ne_eq, not_false_eq_true, if_true]
    have hR : Throws (some (.exn .iosFailure) : Option (Res (List T × IStream))) := rfl
    simp only [hy none]
    cases y with
    | none => exact .inr rfl
    | some y =>
      simp only [Option.some_or]
      by_cases h1 : y = opening
      case neg => simp only [h1, not_false_eq_true, if_true]; exact rfl
      subst h1
      simp only [not_true, if_false]
      rcases readChar_raw s2 h10 with ⟨s4, z, hg4, hz, h12, h13, h14⟩ | ⟨b, s4, s3, z, hg4, he3, hb, ⟨hp3, hg3, t, ht⟩, h12, h13, h14, hz, hraw⟩
      · simp only [(hz (some y)).1]
        cases z with
        | none =>
          simp only [Option.none_or, hoc, not_false_eq_true, if_true]
          have hp := hend hg4 rfl
          refine Sim.blank h9 h11 hR (Sim.before (s1 := s4.putback y) (by rw [hp]; exact h12) ?_
            (loop_raw hrd hc hsp _ _ _ _ (by rw [hp]; exact h13) (fun h => absurd h hcs) _ hk))
          rw [hp]; exact h14
        | some z =>
          simp only [Option.some_or]
          obtain ⟨h15, h16, h17, h18⟩ := hg4.some z rfl
          by_cases h2 : z = closing
          · simp only [h2, not_true, if_false]
            exact Sim.blank h9 h11 hR (Sim.before h12 h14 (loop_raw hrd hc hsp _ _ _ _ h13 (fun _ => hgood h15) _ hk))
          · simp only [h2, not_false_eq_true, if_true]
            refine Sim.blank h9 h11 hR (Sim.before (s1 := s4.putback z) (by rw [h18]; exact List.suffix_rfl) ?_
              (loop_raw hrd hc hsp _ _ _ _ h17 (fun h => absurd h hcs) _ hk))
            simp [took, h18, NoBlank]
      · simp only [hz (some y)]
        cases z with
        | none =>
          simp only [Option.none_or, hoc, not_false_eq_true, if_true]
          have hp := hend hg4 rfl
          refine Sim.blank h9 h11 hR (Sim.blank (Q := Throws) (s1 := s4.putback y) (by rw [hp]; exact h12) ?_ hR
            (loop_raw hrd hc hsp _ _ _ _ (by rw [hp]; exact h13) (fun h => absurd h hcs) _ hk))
          rw [hp]; exact h14
        | some z =>
          simp only [Option.some_or]
          obtain ⟨h15, h16, h17, h18, h19⟩ := hg4.some z rfl
          by_cases h2 : z = closing
          · simp only [h2, not_true, if_false]
            exact Sim.blank h9 h11 hR (Sim.blank (Q := Throws) h12 h14 hR (loop_raw hrd hc hsp _ _ _ _ h13 (fun _ => hgood h15) _ hk))
          · simp only [h2, not_false_eq_true, if_true]
            exact Sim.blank h9 h11 hR (Sim.blank (Q := Throws) h18 h19 hR (loop_raw hrd hc hsp _ _ _ _ h17 (fun h => absurd h hcs) _ hk))

theorem throws_rejected {r : Option (Res (T × IStream))} (h : Throws r) : Rejected r := .inl h

theorem Follows.rejected {rd rd' : IStream → Option (Res (T × IStream))} (h : Follows Throws rd rd') : Follows Rejected rd rd' :=
  fun s hs => Sim.mono (fun _ => throws_rejected) (h s hs)

/-- A list that begins with a blank is rejected. -/
theorem noStart_sequence (rd' : IStream → Option (Res (T × IStream))) {opening : Char} (ho : isSpace opening = false) (closing sep : Char) (k : Nat) :
    NoStart (fun s => readSequenceX k rd' s opening closing sep) := by
  intro s b t hg hk hr hb
  have hb1 : b ≠ opening := fun h => by rw [h, ho] at hb; cases hb
  left
  simp only
  rw [readSequenceX, readChar_noskip hg hk, extract, hr]
  simp [hb1]

theorem follows_nest {rd rd' : IStream → Option (Res (L × IStream))} (hrd : Follows Rejected rd rd') (hst : NoStart rd') {fuel k : Nat}
    (hk : fuel + 2 ≤ k) : ∀ d, Follows Rejected (readNest fuel rd d) (readNest k rd' d) ∧ NoStart (readNest k rd' d)
  | 0 => ⟨hrd, hst⟩
  | d + 1 => ⟨(sequence_raw (follows_nest hrd hst hk d).1 (follows_nest hrd hst hk d).2 (by decide) (by decide) (by decide) (by decide) (by decide)
      fuel k hk).rejected, noStart_sequence _ (by decide) ']' ',' k⟩

/-! ## Items read by one operation -/

/-- An extraction that does not use the flag, takes characters that are not blanks, and fails on nothing and on blanks. -/
structure Extracts (ex : IStream → T × IStream) : Prop where
  raw : ∀ s, ex (raw s) = ((ex s).1, raw (ex s).2)
  skip : ∀ s, (ex s).2.skipws = s.skipws
  takes : ∀ s, ∃ t, s.rest = t ++ (ex s).2.rest ∧ NoBlank t
  fails : ∀ s, (∀ c t, s.rest = c :: t → isSpace c = true) → (ex s).2.fail = true

/-- `is >> x` for an item that is extracted by `ex`. -/
def readItem (ex : IStream → T × IStream) (s : IStream) (x : T) : T × IStream :=
  let r := s.sentry false
  if r.1 then ex r.2 else (x, r.2)

theorem noStart_item {ex : IStream → T × IStream} (h : Extracts ex) (x : T) : NoStart (fun s => some (.ok (readItem ex s x))) := by
  intro s b t hg hk hr hb
  have he : readItem ex s x = ex s := by simp [readItem, sentry, hg, hk]
  refine .inr ⟨(ex s).1, (ex s).2, by simp only [he], .inl ?_⟩
  have := h.fails s (fun c t' h' => by rw [hr] at h'; cases h'; exact hb)
  simp [IStream.failed, this]

theorem follows_item {ex : IStream → T × IStream} (h : Extracts ex) (x : T) :
    Follows Rejected (fun s => some (.ok (readItem ex s x))) (fun s => some (.ok (readItem ex s x))) := by
  intro s hk
  simp only
  cases hg : s.good with
  | false =>
    have h1 : readItem ex s x = (x, { s with fail := true }) := by simp [readItem, sentry, hg]
    have h2 : readItem ex (raw s) x = (x, { raw s with fail := true }) := by simp [readItem, sentry, show (raw s).good = false from hg]
    rw [h1, h2]
    exact ⟨fun _ => .inr ⟨_, _, rfl, .inl rfl⟩, fun hf => by cases hf⟩
  | true =>
    have hg2 : (raw s).good = true := hg
    have h2 : readItem ex (raw s) x = ex (raw s) := by simp [readItem, sentry, hg2, show (raw s).skipws = false from rfl]
    by_cases hb : ∀ c t, s.rest = c :: t → isSpace c = true
    · have hf : (ex (raw s)).2.failed = true := by simp [IStream.failed, h.fails (raw s) hb]
      have hrej : Rejected (some (.ok (readItem ex (raw s) x))) := .inr ⟨_, _, by rw [h2], .inl hf⟩
      cases hd : s.rest.dropWhile isSpace with
      | nil =>
        have h1 : readItem ex s x = (x, { s.skipBlanks with eof := true, fail := true }) := by simp [readItem, sentry, hg, hk, skipBlanks, hd]
        rw [h1]
        exact ⟨fun _ => hrej, fun hf => by cases hf⟩
      | cons z q =>
        have h1 : readItem ex s x = ex s.skipBlanks := by simp [readItem, sentry, hg, hk, skipBlanks, hd]
        rw [h1]
        obtain ⟨t, ht, hn⟩ := h.takes s.skipBlanks
        have hsplit := List.takeWhile_append_dropWhile (p := isSpace) (l := s.rest)
        have hs : s.rest = (s.rest.takeWhile isSpace ++ t) ++ (ex s.skipBlanks).2.rest := by
          rw [List.append_assoc, ← ht]; exact hsplit.symm
        refine ⟨fun _ => hrej, fun _ => ⟨⟨_, hs.symm⟩, (h.skip _).trans hk, .inr ⟨?_, hrej⟩⟩⟩
        rw [took_eq hs]
        intro hnb
        cases hr : s.rest with
        | nil => rw [hr] at hd; cases hd
        | cons y r =>
          have hy := hb y r hr
          have := hnb y (List.mem_append_left _ (by rw [hr]; simp [hy]))
          rw [hy] at this; cases this
    · have ⟨c, t, hr, hc⟩ : ∃ c t, s.rest = c :: t ∧ isSpace c = false := by
        cases hr : s.rest with
        | nil => exact absurd (fun c t h => by rw [hr] at h; cases h) hb
        | cons c t =>
          refine ⟨c, t, rfl, ?_⟩
          cases hc : isSpace c with
          | false => rfl
          | true => exact absurd (fun c' t' h => by rw [hr] at h; cases h; exact hc) hb
      have hsk : s.skipBlanks = s := by
        cases s; simp at hr; subst hr; simp [skipBlanks, hc]
      have h1 : readItem ex s x = ex s := by simp [readItem, sentry, hg, hk, hsk, hr]
      rw [h1, h2, h.raw]
      obtain ⟨t', ht, hn⟩ := h.takes s
      refine ⟨fun hf => .inr ⟨_, _, rfl, .inl hf⟩, fun _ => ⟨⟨t', ht.symm⟩, (h.skip s).trans hk, .inl ⟨?_, rfl⟩⟩⟩
      rw [took_eq ht]
      exact hn

theorem digit_noBlank {c : Char} (h : isDigit c = true) : isSpace c = false := by
  simp only [isDigit, Bool.and_eq_true, decide_eq_true_eq] at h
  cases hs : isSpace c with
  | false => rfl
  | true =>
    simp only [isSpace, Bool.or_eq_true, beq_iff_eq] at hs
    rcases hs with ((((rfl | rfl) | rfl) | rfl) | rfl) | rfl <;> exact absurd h (by decide)

/-- Numbers. -/
theorem extracts_int (lo hi : Int) : Extracts (extractInt lo hi) where
  raw s := by
    show extractInt lo hi (Raw.raw s) = (fun p : Int × IStream => (p.1, Raw.raw p.2)) (extractInt lo hi s)
    generalize hG : (fun p : Int × IStream => (p.1, Raw.raw p.2)) = G
    unfold extractInt
    simp only [apply_ite G]
    subst hG
    rfl
  skip s := by
    unfold extractInt
    simp only
    repeat (first | rfl | split)
  takes s := by
    refine ⟨s.rest.take (signLength s.rest) ++ (s.rest.drop (signLength s.rest)).takeWhile isDigit, ?_, ?_⟩
    · have hrest : (extractInt lo hi s).2.rest = (s.rest.drop (signLength s.rest)).dropWhile isDigit := by
        unfold extractInt
        simp only
        repeat (first | rfl | split)
      rw [hrest, List.append_assoc, List.takeWhile_append_dropWhile, List.take_append_drop]
    · rw [noBlank_append]
      constructor
      · intro c hc
        unfold signLength at hc
        split at hc
        · rename_i h; rw [h] at hc; simp at hc; rw [hc]; decide
        · rename_i h; rw [h] at hc; simp at hc; rw [hc]; decide
        · simp at hc
      · intro c hc
        have h := List.all_takeWhile (l := s.rest.drop (signLength s.rest)) (p := isDigit)
        exact digit_noBlank (List.all_eq_true.1 h c hc)
  fails s h := by
    have hs : signLength s.rest = 0 := by
      unfold signLength
      split
      · rename_i t hr; have := h _ _ hr; cases this
      · rename_i t hr; have := h _ _ hr; cases this
      · rfl
    have hd : s.rest.takeWhile isDigit = [] := by
      cases hr : s.rest with
      | nil => rfl
      | cons c t =>
        have hc := h c t hr
        have : isDigit c = false := by
          cases hdg : isDigit c with
          | false => rfl
          | true => rw [digit_noBlank hdg] at hc; cases hc
        simp [this]
    unfold extractInt
    simp only [hs, List.drop_zero, hd]
    rfl

/-! ## Words -/

theorem matchWord_raw : ∀ (w : List Char) (s : IStream), matchWord w (raw s) = ((matchWord w s).1, raw (matchWord w s).2)
  | [], _ => rfl
  | c :: w, s => by
    rw [matchWord, matchWord, show (raw s).rest = s.rest from rfl]
    split
    · rfl
    · split
      · exact matchWord_raw w { s with before := _ :: s.before, rest := _ }
      · rfl

theorem matchWord_takes : ∀ (w : List Char) (s : IStream), (matchWord w s).2.skipws = s.skipws ∧
    ∃ t, s.rest = t ++ (matchWord w s).2.rest ∧ ∀ c ∈ t, c ∈ w
  | [], s => ⟨rfl, [], rfl, by simp⟩
  | c :: w, s => by
    rw [matchWord]
    split
    · rename_i h
      exact ⟨rfl, [], rfl, by simp⟩
    · rename_i x r hr
      split
      · rename_i hx
        obtain ⟨h1, t, h2, h3⟩ := matchWord_takes w { s with before := x :: s.before, rest := r }
        refine ⟨h1, x :: t, by rw [hr, List.cons_append, ← h2], fun y hy => ?_⟩
        rcases List.mem_cons.1 hy with rfl | hy
        · simp at hx; simp [hx]
        · exact List.mem_cons_of_mem _ (h3 y hy)
      · exact ⟨rfl, [], rfl, by simp⟩

theorem extractBool_takes (s : IStream) : (extractBool s).2.skipws = s.skipws ∧ ∃ t, s.rest = t ++ (extractBool s).2.rest ∧ NoBlank t := by
  have hword : ∀ (w : List Char), NoBlank w → (matchWord w s).2.skipws = s.skipws ∧ ∃ t, s.rest = t ++ (matchWord w s).2.rest ∧ NoBlank t := fun w hw => by
    obtain ⟨h1, t, h2, h3⟩ := matchWord_takes w s
    exact ⟨h1, t, h2, fun c hc => hw c (h3 c hc)⟩
  have hint := (extracts_int longMin longMax).takes s
  have hskip := (extracts_int longMin longMax).skip s
  unfold extractBool
  split
  · split
    · simp only
      split <;> exact hword ['t', 'r', 'u', 'e'] (by decide)
    · simp only
      split <;> exact hword ['f', 'a', 'l', 's', 'e'] (by decide)
    · exact ⟨rfl, [], rfl, by simp [NoBlank]⟩
  · simp only
    repeat (first | exact ⟨hskip, hint⟩ | split)

/-- `bool`. -/
theorem extracts_bool : Extracts extractBool where
  raw s := by
    have hi := (extracts_int longMin longMax).raw s
    unfold extractBool
    rw [show (Raw.raw s).boolalpha = s.boolalpha from rfl]
    split
    · rw [show (Raw.raw s).rest = s.rest from rfl]
      split
      · simp only [matchWord_raw]
        split <;> rfl
      · simp only [matchWord_raw]
        split <;> rfl
      · rfl
    · simp only [hi]
      show _ = (fun p : Bool × IStream => (p.1, Raw.raw p.2)) _
      generalize hG : (fun p : Bool × IStream => (p.1, Raw.raw p.2)) = G
      simp only [apply_ite G]
      subst hG
      rfl
  skip s := (extractBool_takes s).1
  takes s := (extractBool_takes s).2
  fails s h := by
    have hf := (extracts_int longMin longMax).fails s h
    unfold extractBool
    split
    · split
      · rename_i hr; have := h _ _ hr; cases this
      · rename_i hr; have := h _ _ hr; cases this
      · rfl
    · simp only [hf, if_true]

theorem readItem_bool (b : Bool) (s : IStream) : readItem extractBool s b = s.readBool b := rfl
theorem readItem_int (lo hi x : Int) (s : IStream) : readItem (extractInt lo hi) s x = s.readInt lo hi x := rfl

theorem get_good {s : IStream} (hg : s.good = true) {x : Char} {t : List Char} (hr : s.rest = x :: t) (c : Option Char) :
    s.get c = (some x, { s with before := x :: s.before, rest := t }) := by
  simp [IStream.get, sentry, hg, hr, extract]

/-- The loop reading zeros and ones does not use the flag; it takes bits only. -/
theorem bits_raw : ∀ (fuel : Nat) (c : Char) (w : BinWord.Word) (s : IStream), s.good = true → (s.putback c).good = true →
    (s.putback c).rest = c :: s.rest → ∀ k, fuel ≤ k → ∀ r, BinWord.readBits fuel c w s = some r →
      ∃ c' w' s1, r = .ok (c', w', s1) ∧ BinWord.readBits k c w (raw s) = some (.ok (c', w', raw s1)) ∧ s1.skipws = s.skipws ∧
        (s1.fail = true ∨ (s1.putback c').good = true ∧ (s1.putback c').rest <:+ (s.putback c).rest ∧
          NoBlank (took (s.putback c) (s1.putback c'))) := by
  intro fuel
  induction fuel with
  | zero => intro c w s _ _ _ k _ r h; cases h
  | succ fuel ih =>
    intro c w s hg hp hpr k hk r h
    obtain ⟨k, rfl⟩ : ∃ j, k = j + 1 := ⟨k - 1, by omega⟩
    rw [BinWord.readBits] at h ⊢
    by_cases hb : (!s.failed && (c == '0' || c == '1')) = true
    · have hcb : isSpace c = false := by
        simp only [Bool.and_eq_true, Bool.or_eq_true, beq_iff_eq] at hb
        rcases hb.2 with rfl | rfl <;> rfl
      simp only [show (raw s).failed = s.failed from rfl, hb, if_true] at h ⊢
      cases hr : s.rest with
      | nil =>
        have h1 : s.get (some c) = (some c, { s with eof := true, fail := true }) := by simp [IStream.get, sentry, hg, hr, extract]
        have h2 : (raw s).get (some c) = (some c, { raw s with eof := true, fail := true }) := by
          simp [IStream.get, sentry, show (raw s).good = true from hg, show (raw s).rest = [] from hr, extract]
        simp only [h1] at h
        simp only [h2]
        cases fuel with
        | zero => cases h
        | succ fuel =>
          obtain ⟨k, rfl⟩ : ∃ j, k = j + 1 := ⟨k - 1, by omega⟩
          rw [BinWord.readBits] at h ⊢
          simp only [IStream.failed, Bool.true_or, Bool.not_true, Bool.false_and, Bool.false_eq_true, if_false] at h ⊢
          cases h
          exact ⟨c, _, _, rfl, rfl, rfl, .inl rfl⟩
      | cons x t =>
        have h1 := get_good hg hr (some c)
        have h2 : (raw s).get (some c) = (some x, raw { s with before := x :: s.before, rest := t }) := get_good (s := raw s) hg hr (some c)
        simp only [h1] at h
        simp only [h2]
        have he : s.eof = false := by simp [IStream.good] at hg; exact hg.1.1
        have hpb : ({ s with before := x :: s.before, rest := t } : IStream).putback x = s := by
          rw [putback_read hg he, ← hr]
        obtain ⟨c', w', s1, h3, h4, h5, h6⟩ := ih x _ { s with before := x :: s.before, rest := t } hg (by rw [hpb]; exact hg) (by rw [hpb, hr]) k
          (by omega) r h
        refine ⟨c', w', s1, h3, h4, h5, h6.imp id fun ⟨h7, h8, h9⟩ => ⟨h7, ?_, ?_⟩⟩
        · rw [hpb] at h8
          rw [hpr]
          exact List.IsSuffix.trans h8 (List.suffix_cons c _)
        · rw [hpb] at h8 h9
          have : s.rest <:+ (s.putback c).rest := by rw [hpr]; exact List.suffix_cons c _
          rw [took_trans this h8, noBlank_append]
          refine ⟨?_, h9⟩
          rw [took_eq (t := [c]) (by rw [hpr]; rfl)]
          simpa [NoBlank] using hcb
    · simp only [show (raw s).failed = s.failed from rfl, hb, if_false, Bool.false_eq_true] at h ⊢
      cases h
      exact ⟨c, w, s, rfl, rfl, rfl, .inr ⟨hp, List.suffix_rfl, by simp [took, NoBlank]⟩⟩

/-- binary_word.hpp:194-208, after the first symbol. -/
def wordBody (fuel : Nat) (symbol : Char) (s : IStream) : Option (Res (BinWord.Word × IStream)) :=
  if symbol = '[' then readVector fuel (fun s => s.readBool false) (s.putback symbol) []
  else
    match BinWord.readBits fuel symbol [] s with
    | none => none
    | some (.ok (symbol, w, is)) => some (.ok (w, is.putback symbol))
    | some (.ub k) => some (.ub k)
    | some (.exn e) => some (.exn e)
    | some .abort => some .abort

theorem readWord_body (fuel : Nat) (s : IStream) : BinWord.readWord fuel s [] =
    match (s.readChar none).1 with
    | none => some (.ub .indeterminate)
    | some symbol => wordBody fuel symbol (s.readChar none).2 := rfl

theorem follows_bools {fuel k : Nat} (hk : fuel + 2 ≤ k) :
    Follows Throws (fun s => readVector fuel (fun s => s.readBool false) s []) (fun s => readVector k (fun s => s.readBool false) s []) := by
  have h := sequence_raw (follows_item extracts_bool false) (noStart_item extracts_bool false) (opening := '[') (closing := ']') (sep := ',')
    (by decide) (by decide) (by decide) (by decide) (by decide) fuel k hk
  intro s hs
  have h1 := h s hs
  simp only [readItem_bool, C82_same (fun s => s.readBool false) _ _ []] at h1
  exact h1

theorem body_raw {fuel k : Nat} (hk : fuel + 2 ≤ k) (y : Char) (s : IStream) (hg : s.good = true) (hp : (s.putback y).good = true)
    (hps : (s.putback y).skipws = true) (hs : s.skipws = true) (hpr : (s.putback y).rest = y :: s.rest) :
    Sim Rejected (s.putback y) (wordBody fuel y s) (wordBody k y (raw s)) := by
  unfold wordBody
  by_cases hy : y = '['
  · simp only [hy, if_true, putback_raw]
    subst hy
    exact Sim.mono (fun _ => throws_rejected) (follows_bools hk (s.putback '[') hps)
  · simp only [hy, if_false]
    cases h1 : BinWord.readBits fuel y [] s with
    | none => trivial
    | some r =>
      obtain ⟨c', w', s1, rfl, h3, h4, h5⟩ := bits_raw fuel y [] s hg hp hpr k (by omega) r h1
      simp only [h3, putback_raw]
      refine ⟨fun hf => .inr ⟨_, _, rfl, .inl hf⟩, fun hf => ?_⟩
      rcases h5 with h5 | ⟨h5, h6, h7⟩
      · rw [putback_failed h5] at hf
        simp [IStream.failed, h5] at hf
      · refine ⟨h6, ?_, .inl ⟨h7, rfl⟩⟩
        have : ∀ (s : IStream) (c : Char), (s.putback c).skipws = s.skipws := fun s c => by
          obtain ⟨b, r, e, f, bd, a, k⟩ := s
          cases f <;> cases bd <;> cases b <;> simp [putback, sentry, IStream.good]
          split <;> rfl
        rw [this, h4, hs]

theorem noStart_word (k : Nat) (hk : 0 < k) : NoStart (fun s => BinWord.readWord k s []) := by
  intro s b t hg hks hr hb
  have he : s.eof = false := by simp [IStream.good] at hg; exact hg.1.1
  have h1 : s.readChar none = (some b, { s with before := b :: s.before, rest := t }) := by
    rw [readChar_noskip hg hks, extract, hr]
  have hb1 : b ≠ '[' := fun h => by rw [h] at hb; cases hb
  have hb2 : (b == '0' || b == '1') = false := by
    cases h : (b == '0' || b == '1') with
    | false => rfl
    | true =>
      simp only [Bool.or_eq_true, beq_iff_eq] at h
      rcases h with rfl | rfl <;> cases hb
  obtain ⟨k, rfl⟩ : ∃ j, k = j + 1 := ⟨k - 1, by omega⟩
  have hpb : ({ s with before := b :: s.before, rest := t } : IStream).putback b = s := by rw [putback_read hg he, ← hr]
  refine .inr ⟨[], s, ?_, .inr ⟨hg, hks, b, t, hr, hb⟩⟩
  show BinWord.readWord (k + 1) s [] = _
  rw [readWord_body, h1]
  simp only [wordBody, hb1, if_false, BinWord.readBits, hb2, Bool.and_false, Bool.false_eq_true, hpb]

theorem follows_word {fuel k : Nat} (hk : fuel + 2 ≤ k) :
    Follows Rejected (fun s => BinWord.readWord fuel s []) (fun s => BinWord.readWord k s []) := by
  intro s hs
  simp only
  rcases readChar_raw s hs with ⟨s2, y, hg, hy, h9, h10, h11⟩ | ⟨b, s2, s3, y, hg, he3, hb, ⟨hp3, hg3, t, ht⟩, h9, h10, h11, hy, hraw⟩
  · rw [readWord_body, readWord_body]
    simp only [(hy none).1, (hy none).2]
    cases y with
    | none => exact .inl rfl
    | some y =>
      simp only [Option.some_or]
      obtain ⟨h1, h2, h3, h4⟩ := hg.some y rfl
      refine Sim.before (by rw [h4]; exact List.suffix_rfl) ?_ (body_raw hk y s2 h1 h2 h3 h10 (hg.back y rfl))
      simp [took, h4, NoBlank]
  · have hrej : Rejected (BinWord.readWord k (raw s) []) := noStart_word k (by omega) (raw s) b t hg3 rfl ht hb
    have hy1 := hy none
    cases y with
    | none =>
      rw [readWord_body, hy1]
      exact .inr hrej
    | some y =>
      have hR : BinWord.readWord fuel s [] = wordBody fuel y s2 := by rw [readWord_body, hy1]; rfl
      rw [hR]
      obtain ⟨h1, h2, h3, h4, h5⟩ := hg.some y rfl
      exact Sim.blank h4 h5 hrej (body_raw hk y s2 h1 h2 h3 h10 (hg.back y rfl))

end Helper.Seq.Raw
