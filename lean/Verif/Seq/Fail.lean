import Verif.Seq.Props
/-!
# C87: what `read_sequence` leaves in the container when it throws

The model of `read_sequence` again, with the container and the stream as state, so that they are known also after an
exception, and with item readers that may throw themselves (nested containers do).
-/
set_option linter.unusedSectionVars false
namespace Helper.Seq
open IStream

variable {T : Type u}

/-- stlio.hpp:169-182, the loop of `read_sequence`, with the container and the stream it leaves. The `catch` clause (184-187) throws
the exception again. -/
def readLoopS (rd : IStream → Res T × IStream) (closing separator : Char) :
    Nat → Char → List T → IStream → Option (Res Unit × List T × IStream)
  | 0, _, _, _ => none
  | fuel + 1, c, v, is =>
    if c ≠ closing then
      if is.eof then some (.exn .iosFailure, v, is)
      else if c ≠ separator then some (.exn .iosFailure, v, is)
      else
        match rd is with
        | (.ok x, is') =>
          if is'.failed then some (.exn .iosFailure, v, is')
          else
            match is'.readChar (some c) with
            | (none, is'') => some (.ub .indeterminate, v ++ [x], is'')
            | (some c', is'') => readLoopS rd closing separator fuel c' (v ++ [x]) is''
        | (.exn e, is') => some (.exn e, v, is')
        | (.ub u, is') => some (.ub u, v, is')
        | (.abort, is') => some (.abort, v, is')
    else some (.ok (), v, is)

/-- stlio.hpp:144-190 `read_sequence` into a container with contents `v`. -/
def readSequenceS (fuel : Nat) (rd : IStream → Res T × IStream) (is : IStream) (v : List T)
    (opening closing separator : Char) : Option (Res Unit × List T × IStream) :=
  let v := v.drop v.length  -- line 154, `v.clear()`
  match is.readChar none with
  | (none, is) => some (.ub .indeterminate, v, is)
  | (some c, is) =>
    if c ≠ opening then some (.exn .iosFailure, v, is)
    else
      match is.readChar (some c) with
      | (none, is) => some (.ub .indeterminate, v, is)
      | (some c, is) =>
        if c ≠ closing then readLoopS rd closing separator fuel separator v (is.putback c)
        else readLoopS rd closing separator fuel c v is

/-- The outcome without the state after an exception. -/
def outcome : Res Unit × List T × IStream → Res (List T × IStream)
  | (.ok _, v, is) => .ok (v, is)
  | (.exn e, _) => .exn e
  | (.ub u, _) => .ub u
  | (.abort, _) => .abort

/-- An item reader that does not throw. -/
def noThrow (rd : IStream → T × IStream) : IStream → Res T × IStream := fun s => (.ok (rd s).1, (rd s).2)

theorem readLoopS_outcome (rd : IStream → T × IStream) (closing sep : Char) : ∀ (fuel : Nat) (c : Char) (v : List T) (s : IStream),
    (readLoopS (noThrow rd) closing sep fuel c v s).map outcome = readLoop rd closing sep fuel c v s := by
  intro fuel
  induction fuel with
  | zero => intros; rfl
  | succ fuel ih =>
    intro c v s
    simp only [readLoopS, readLoop, noThrow]
    split
    · split
      · rfl
      · split
        · rfl
        · split
          · rfl
          · cases h : (rd s).2.readChar (some c) with
            | mk a b =>
              cases a with
              | none => rfl
              | some c' => exact ih _ _ _
    · rfl

/-- C87: the model with state is the model of C20: same outcomes, same results. -/
theorem C87_same (fuel : Nat) (rd : IStream → T × IStream) (s : IStream) (v : List T) (opening closing sep : Char) :
    (readSequenceS fuel (noThrow rd) s v opening closing sep).map outcome = readSequence fuel rd s v opening closing sep := by
  simp only [readSequenceS, readSequence]
  rcases h : s.readChar none with ⟨_ | c, s1⟩
  · rfl
  · simp only
    split
    · rfl
    · rcases h' : s1.readChar (some c) with ⟨_ | c', s2⟩
      · rfl
      · simp only
        split <;> exact readLoopS_outcome ..

/-- `Stops inp xs`: from the text `inp`, which should start with an item, exactly the items `xs` can be read before the
text deviates from the grammar of sequences: there is no next item, or the text after an item is neither a separator nor
closing. -/
inductive Stops (Item : ItemGrammar T) (closing sep : Char) : List Char → List T → Prop where
  | noItem {inp} : (∀ x r, ¬ Item inp x r) → Stops Item closing sep inp []
  | noDelimiter {inp x r} : Item inp x r → ¬ StartsWith closing r → ¬ StartsWith sep r → Stops Item closing sep inp [x]
  | more {inp x b tail xs} : Item inp x (b ++ sep :: tail) → Blank b → Stops Item closing sep tail xs →
      Stops Item closing sep inp (x :: xs)

/-- The items in a text that is not a sequence: none if it does not begin with opening, or nothing follows. -/
def StopsSequence (Item : ItemGrammar T) (opening closing sep : Char) (inp : List Char) (xs : List T) : Prop :=
  (¬ StartsWith opening inp ∧ xs = []) ∨
  ∃ b body, Blank b ∧ inp = b ++ opening :: body ∧ ((Blank body ∧ xs = []) ∨ Stops Item closing sep body xs)

variable {ok : IStream → Prop} {rd : IStream → T × IStream} {Item : ItemGrammar T}

/-- In the loop. -/
theorem readLoopS_stops (R : Reads ok rd Item) {closing sep : Char} (hc : isSpace closing = false)
    (hsp : isSpace sep = false) (hcs : sep ≠ closing) :
    ∀ (fuel : Nat) (v : List T) (s : IStream), s.rest.length + 2 ≤ fuel → s.Plain → ok s →
      (∃ v' s', readLoopS (noThrow rd) closing sep fuel sep v s = some (.ok (), v', s')) ∨
      ∃ xs s', readLoopS (noThrow rd) closing sep fuel sep v s = some (.exn .iosFailure, v ++ xs, s') ∧
        Stops Item closing sep s.rest xs := by
  intro fuel
  induction fuel with
  | zero => intro v s h; omega
  | succ fuel ih =>
    intro v s hfuel hs hok
    obtain ⟨fuel, rfl⟩ : ∃ k, fuel = k + 1 := ⟨fuel - 1, by omega⟩
    by_cases hf : (rd s).2.failed = true
    · right
      refine ⟨[], (rd s).2, by simp [readLoopS, noThrow, hcs, hs.eof, hf], .noItem fun x r hit => ?_⟩
      obtain ⟨t, _, hrd⟩ := R.reads hs hok hit
      rw [hrd] at hf
      simp [failed, adv, hs.fail, hs.bad] at hf
    · have hf : (rd s).2.failed = false := by simpa using hf
      have hit := R.item hs hok hf
      obtain ⟨t, ht, hrd⟩ := R.reads hs hok hit
      generalize hx : (rd s).1 = x at *
      generalize hr1 : (rd s).2.rest = r1 at *
      rcases blank_or_split r1 with hb | ⟨b, y, r2, hb, hy, hr⟩
      · right
        have hns : ∀ d, isSpace d = false → ¬ StartsWith d r1 := by
          rintro d hd ⟨b, r, _, heq⟩
          rw [heq] at hb
          exact not_blank_split hd hb
        by_cases hr0 : r1 = []
        · subst hr0
          have hng : (IStream.good { s.adv t [] with eof := true }) = false := by simp [IStream.good]
          have hnf : (IStream.failed { s.adv t [] with eof := true }) = false := by
            simp [failed, adv, hs.fail, hs.bad]
          suffices h : ∃ s', readLoopS (noThrow rd) closing sep (fuel + 1 + 1) sep v s =
              some (.exn .iosFailure, v ++ [x], s') from
            h.elim fun s' h => ⟨[x], s', h, .noDelimiter hit (hns _ hc) (hns _ hsp)⟩
          apply Exists.intro
          · rw [readLoopS]
            simp only [List.isEmpty_nil] at hrd
            simp only [noThrow, hrd, readChar_notGood hng, hnf]
            simp only [hcs, ne_eq, not_false_eq_true, if_true, hs.eof, not_true_eq_false, if_false, Bool.false_eq_true]
            rw [readLoopS]
            simp [hcs]
            rfl
        · rw [eof_cons s hs t hr0] at hrd
          have hp := adv_plain hs t r1
          have hnf : (s.adv t r1).failed = false := by simp [failed, hp.fail, hp.bad]
          suffices h : ∃ s', readLoopS (noThrow rd) closing sep (fuel + 1 + 1) sep v s =
              some (.exn .iosFailure, v ++ [x], s') from
            h.elim fun s' h => ⟨[x], s', h, .noDelimiter hit (hns _ hc) (hns _ hsp)⟩
          apply Exists.intro
          · rw [readLoopS]
            simp only [noThrow, hrd, readChar_blank hp hb, hnf]
            simp only [hcs, ne_eq, not_false_eq_true, if_true, hs.eof, not_true_eq_false, if_false, Bool.false_eq_true]
            rw [readLoopS]
            simp [hcs]
            rfl
      · have hne : r1 ≠ [] := by rw [hr]; simp
        rw [eof_cons s hs t hne] at hrd
        have hp := adv_plain hs t r1
        have hnf : (s.adv t r1).failed = false := by simp [failed, hp.fail, hp.bad]
        have hrc := readChar_split hp hb hy hr (some sep)
        rw [adv_adv] at hrc
        have hstep : readLoopS (noThrow rd) closing sep (fuel + 1 + 1) sep v s =
            readLoopS (noThrow rd) closing sep (fuel + 1) y (v ++ [x]) (s.adv (t ++ (b ++ [y])) r2) := by
          rw [readLoopS]
          simp only [noThrow, hrd, hrc, hnf]
          simp only [hcs, ne_eq, not_false_eq_true, if_true, hs.eof, not_true_eq_false, if_false, Bool.false_eq_true]
        rw [hstep]
        have hlen : s.rest.length = t.length + r1.length := by rw [ht]; simp
        have hlen1 : r1.length = b.length + r2.length + 1 := by rw [hr]; simp; omega
        have hdelim : ∀ d, isSpace d = false → StartsWith d r1 → d = y := by
          rintro d hd ⟨b', r', hb', heq⟩
          rw [hr] at heq
          exact (split_unique hb hb' hy hd heq).2.1.symm
        by_cases hyc : y = closing
        · left
          exact ⟨v ++ [x], s.adv (t ++ (b ++ [y])) r2, by rw [readLoopS]; simp [hyc]⟩
        · by_cases hys : y = sep
          · subst hys
            have hfuel' : (s.adv (t ++ (b ++ [y])) r2).rest.length + 2 ≤ fuel + 1 := by
              show r2.length + 2 ≤ fuel + 1
              omega
            rcases ih (v ++ [x]) (s.adv (t ++ (b ++ [y])) r2) hfuel' (adv_plain hs _ _)
                (R.adv hok _ _) with h | ⟨xs, s', h, hst⟩
            · exact .inl h
            · right
              refine ⟨x :: xs, s', by rw [h]; simp, .more (b := b) (tail := r2) ?_ hb hst⟩
              rw [← hr]; exact hit
          · right
            have he : (s.adv (t ++ (b ++ [y])) r2).eof = false := hs.eof
            refine ⟨[x], s.adv (t ++ (b ++ [y])) r2, by rw [readLoopS]; simp [hyc, hys, he], .noDelimiter hit ?_ ?_⟩
            · exact fun h => hyc (hdelim _ hc h).symm
            · exact fun h => hys (hdelim _ hsp h).symm

/-- The outcomes of `read_sequence`, opening and closing being possibly the same character. -/
theorem readSequenceS_stops (R : Reads ok rd Item) {opening closing sep : Char} (ho : isSpace opening = false)
    (hc : isSpace closing = false) (hsp : isSpace sep = false) (hcs : sep ≠ closing) {s : IStream} (hs : s.Plain) (hok : ok s)
    (v : List T) (hnb : ¬ Blank s.rest) (fuel : Nat) (hfuel : s.rest.length + 2 ≤ fuel) :
    (∃ xs s', readSequenceS fuel (noThrow rd) s v opening closing sep = some (.ok (), xs, s')) ∨
    ∃ xs s', readSequenceS fuel (noThrow rd) s v opening closing sep = some (.exn .iosFailure, xs, s') ∧
      StopsSequence Item opening closing sep s.rest xs := by
  rcases blank_or_split s.rest with hb | ⟨b, c, body, hb, hcs', hinp⟩
  · exact absurd hb hnb
  have h1 := readChar_split hs hb hcs' hinp none
  by_cases hco : c = opening
  · subst hco
    have hp1 := adv_plain hs (b ++ [c]) body
    rcases blank_or_split body with hbb | ⟨b', y, r, hb', hy, hbody⟩
    · have h2 := readChar_blank hp1 (show Blank (s.adv (b ++ [c]) body).rest from hbb) (some c)
      obtain ⟨fuel, rfl⟩ : ∃ k, fuel = k + 1 := ⟨fuel - 1, by omega⟩
      by_cases hoc : c = closing
      · left
        subst hoc
        rcases hq : (s.adv (b ++ [c]) body).readChar (some c) with ⟨o, s2⟩
        rw [hq] at h2
        injection h2 with h2 _
        subst h2
        exact ⟨[], s2, by simp [readSequenceS, h1, hq, readLoopS]⟩
      right
      suffices h : ∃ s', readSequenceS (fuel + 1) (noThrow rd) s v c closing sep = some (.exn .iosFailure, [], s') from
        h.elim fun s' h => ⟨[], s', h, .inr ⟨b, body, hb, hinp, .inl ⟨hbb, rfl⟩⟩⟩
      apply Exists.intro
      · simp only [readSequenceS, h1, h2, hoc, ne_eq, not_true_eq_false, not_false_eq_true, if_true, if_false]
        rw [putback_failed rfl]
        simp only [readLoopS, ne_eq, hcs, not_true_eq_false, not_false_eq_true, if_true, if_false,
          Bool.false_eq_true, noThrow]
        rw [if_pos (R.notGood (by simp [IStream.good]))]
        simp
        rfl
    · have h2 := readChar_split hp1 hb' hy (show (s.adv (b ++ [c]) body).rest = _ from hbody) (some c)
      by_cases hyc : y = closing
      · left
        subst hyc
        obtain ⟨fuel, rfl⟩ : ∃ k, fuel = k + 1 := ⟨fuel - 1, by omega⟩
        exact ⟨[], (s.adv (b ++ [c]) body).adv (b' ++ [y]) r, by simp [readSequenceS, h1, h2, readLoopS]⟩
      · have h3 := putback_adv hp1 b' y r
        rw [adv_adv] at h2
        rw [adv_adv, adv_adv] at h3
        have hlen : (y :: r).length + 2 ≤ fuel := by
          rw [hinp, hbody] at hfuel; simp at hfuel ⊢; omega
        have hrun : readSequenceS fuel (noThrow rd) s v c closing sep =
            readLoopS (noThrow rd) closing sep fuel sep [] (s.adv (b ++ [c] ++ b') (y :: r)) := by
          simp only [readSequenceS, h1, h2, h3, hyc, ne_eq, not_true_eq_false, not_false_eq_true,
            if_true, if_false, List.drop_length]
        rw [hrun]
        rcases readLoopS_stops R hc hsp hcs fuel [] (s.adv (b ++ [c] ++ b') (y :: r)) hlen
            (adv_plain hs _ _) (R.adv hok _ _) with h | ⟨xs, s', h, hst⟩
        · exact .inl h
        · right
          refine ⟨xs, s', by simpa using h, .inr ⟨b, body, hb, hinp, .inr ?_⟩⟩
          have hst : Stops Item closing sep (y :: r) xs := hst
          clear h
          rw [hbody]
          cases hst with
          | noItem h => exact .noItem fun x r' h' => h x r' ((R.blanks hb' hy).1 h')
          | noDelimiter h h1 h2 => exact .noDelimiter ((R.blanks hb' hy).2 h) h1 h2
          | more h h1 h2 => exact .more ((R.blanks hb' hy).2 h) h1 h2
  · right
    refine ⟨[], s.adv (b ++ [c]) body, by simp [readSequenceS, h1, hco], .inl ⟨?_, rfl⟩⟩
    rw [hinp]
    exact not_startsWith hb ho hcs' hco

/-- C87: on every input with a non-blank character, `read_sequence` returns normally (see C20), or throws and leaves
exactly the items before the place where the text stops being a sequence in the container; the previous contents are gone
in any case. -/
theorem C87_contents_partial (R : Reads ok rd Item) {opening closing sep : Char} (ho : isSpace opening = false)
    (hc : isSpace closing = false) (hsp : isSpace sep = false) (hcs : sep ≠ closing)
    (hoc : opening ≠ closing) {s : IStream} (hs : s.Plain) (hok : ok s) (v : List T)
    (hnb : ¬ Blank s.rest) (fuel : Nat) (hfuel : s.rest.length + 2 ≤ fuel) :
    (∃ xs s', readSequenceS fuel (noThrow rd) s v opening closing sep = some (.ok (), xs, s') ∧
      Sequence Item opening closing sep s.rest xs s'.rest) ∨
    ∃ xs s', readSequenceS fuel (noThrow rd) s v opening closing sep = some (.exn .iosFailure, xs, s') ∧
      StopsSequence Item opening closing sep s.rest xs := by
  have hsame := C87_same fuel rd s v opening closing sep
  have key := readSequenceS_stops R ho hc hsp hcs hs hok v hnb fuel hfuel
  rcases key with ⟨xs, s', h⟩ | h
  · left
    refine ⟨xs, s', h, ?_⟩
    rw [h] at hsame
    rcases readSequence_total R ho hc hsp hcs hoc hs hok v hnb fuel hfuel with ⟨ys, rest, t, hsq, ht, hrun⟩ | ⟨_, hrun⟩
    · rw [hrun] at hsame
      simp only [Option.map, outcome, Option.some.injEq, Res.ok.injEq, Prod.mk.injEq] at hsame
      obtain ⟨rfl, rfl⟩ := hsame
      exact hsq
    · rw [hrun] at hsame
      simp [Option.map, outcome] at hsame
  · exact .inr h

/-- C87: whatever the delimiters are, as long as they are not blanks (they may be equal to each other): if `read_sequence` throws, the
container holds the items before the place where the text stops being a sequence. -/
theorem C87_throws_partial (R : Reads ok rd Item) {opening closing sep : Char} (ho : isSpace opening = false)
    (hc : isSpace closing = false) (hsp : isSpace sep = false) {s : IStream} (hs : s.Plain) (hok : ok s) (v : List T)
    (hnb : ¬ Blank s.rest) (fuel : Nat) (hfuel : s.rest.length + 2 ≤ fuel) {r : Res Unit} {xs : List T} {s' : IStream}
    (h : readSequenceS fuel (noThrow rd) s v opening closing sep = some (r, xs, s')) :
    r = .ok () ∨ r = .exn .iosFailure ∧ StopsSequence Item opening closing sep s.rest xs := by
  by_cases hcs : sep = closing
  · subst hcs
    rcases blank_or_split s.rest with hb | ⟨b, c, body, hb, hcs', hinp⟩
    · exact absurd hb hnb
    have h1 := readChar_split hs hb hcs' hinp none
    obtain ⟨fuel, rfl⟩ : ∃ k, fuel = k + 1 := ⟨fuel - 1, by omega⟩
    by_cases hco : c = opening
    · left
      subst hco
      have hstop : ∀ (v : List T) s, readLoopS (noThrow rd) sep sep (fuel + 1) sep v s = some (.ok (), v, s) := by
        intro v s; simp [readLoopS]
      have hp1 := adv_plain hs (b ++ [c]) body
      rcases blank_or_split body with hbb | ⟨b', y, r', hb', hy, hbody⟩
      · have h2 := readChar_blank hp1 (show Blank (s.adv (b ++ [c]) body).rest from hbb) (some c)
        simp only [readSequenceS, h1, h2, ne_eq, not_true_eq_false, if_false, hstop] at h
        split at h
        · injection h with h; injection h with h _; exact h.symm
        · rename_i hcc
          have hcc : c = sep := by simpa using hcc
          rw [hcc, hstop] at h
          injection h with h; injection h with h _; exact h.symm
      · have h2 := readChar_split hp1 hb' hy (show (s.adv (b ++ [c]) body).rest = _ from hbody) (some c)
        simp only [readSequenceS, h1, h2, ne_eq, not_true_eq_false, if_false, hstop] at h
        split at h
        · injection h with h; injection h with h _; exact h.symm
        · rename_i hcc
          have hcc : y = sep := by simpa using hcc
          rw [hcc, hstop] at h
          injection h with h; injection h with h _; exact h.symm
    · right
      simp only [readSequenceS, h1, ne_eq, hco, not_false_eq_true, if_true, List.drop_length] at h
      injection h with h
      injection h with h2 h3
      injection h3 with h3 _
      refine ⟨h2.symm, .inl ⟨?_, h3.symm⟩⟩
      rw [hinp]
      exact not_startsWith hb ho hcs' hco
  · rcases readSequenceS_stops R ho hc hsp hcs hs hok v hnb fuel hfuel with ⟨ys, t, hk⟩ | ⟨ys, t, hk, hst⟩
    · rw [hk] at h
      injection h with h; injection h with h _; exact .inl h.symm
    · rw [hk] at h
      injection h with h
      injection h with h2 h3
      injection h3 with h3 _
      rw [← h3]
      exact .inr ⟨h2.symm, hst⟩

/-- C87 is false for a separator that is a blank, because delimiters are read with `>>`, which skips blanks: reading throws after
the first item, although the text is a sequence. -/
theorem C87_refuted :
    (readSequenceS 40 (noThrow fun s => s.readInt (-128) 127 0) (.ofList "[1 2]".toList) [9] '[' ']' ' ').map
      (fun r => (r.1, r.2.1)) = some (.exn .iosFailure, [1]) ∧
    Sequence (IntItem (-128) 127) '[' ']' ' ' "[1 2]".toList [1, 2] [] := by
  refine ⟨by decide +kernel, [], "1 2]".toList, by simp [Blank], rfl, .inr ⟨?_, ?_⟩⟩
  · rintro ⟨b, r, hb, h⟩
    cases b with
    | nil => simp at h
    | cons c b =>
      have := hb c (by simp)
      simp at h
      rw [← h.1] at this
      exact absurd this (by decide)
  · refine .more (b := []) (tail := "2]".toList) ⟨[], [], ['1'], by simp [Blank], .inl rfl, by simp, by decide, ?_, rfl, by decide, by decide, by decide⟩
      (by simp [Blank]) (.last (b := []) ⟨[], [], ['2'], by simp [Blank], .inl rfl, by simp, by decide, ?_, rfl, by decide, by decide, by decide⟩ (by simp [Blank]))
    · intro c r h
      simp at h
      rw [← h.1]; decide
    · intro c r h
      simp at h
      rw [← h.1]; decide

/-- C87: if opening is a blank, reading throws at once on every input with a non-blank character, and the container is empty. -/
theorem C87_blankOpening (rd : IStream → Res T × IStream) {opening : Char} (closing sep : Char) (ho : isSpace opening = true)
    {s : IStream} (hs : s.Plain) (v : List T) (hnb : ¬ Blank s.rest) (fuel : Nat) :
    ∃ s', readSequenceS fuel rd s v opening closing sep = some (.exn .iosFailure, [], s') := by
  rcases blank_or_split s.rest with hb | ⟨b, c, body, hb, hcs', hinp⟩
  · exact absurd hb hnb
  have h1 := readChar_split hs hb hcs' hinp none
  have hco : c ≠ opening := by rintro rfl; rw [ho] at hcs'; cases hcs'
  exact ⟨_, by simp only [readSequenceS, h1, ne_eq, hco, not_false_eq_true, if_true, List.drop_length]; rfl⟩

/-- C87: these items are determined by the text. -/
theorem C87_unique (R : Reads ok rd Item) {closing sep : Char} (hsp : isSpace sep = false)
    {inp : List Char} {xs ys : List T} (h : Stops Item closing sep inp xs) :
    ∀ {s : IStream}, s.Plain → ok s → s.rest = inp → Stops Item closing sep inp ys → xs = ys := by
  have det : ∀ {s : IStream}, s.Plain → ok s → ∀ {x x' : T} {r r' : List Char}, Item s.rest x r → Item s.rest x' r' →
      x = x' ∧ r = r' := by
    intro s hs hok x x' r r' h h'
    obtain ⟨t, _, hrd⟩ := R.reads hs hok h
    obtain ⟨t', _, hrd'⟩ := R.reads hs hok h'
    rw [hrd] at hrd'
    simp only [Prod.mk.injEq] at hrd'
    exact ⟨hrd'.1, congrArg IStream.rest hrd'.2⟩
  induction h generalizing ys with
  | noItem hn =>
    intro s hs hok hr h'
    cases h' with
    | noItem => rfl
    | noDelimiter h => exact absurd h (hn _ _)
    | more h => exact absurd h (hn _ _)
  | noDelimiter hi h1 h2 =>
    intro s hs hok hr h'
    subst hr
    cases h' with
    | noItem hn => exact absurd hi (hn _ _)
    | noDelimiter h => rw [(det hs hok hi h).1]
    | more h hb _ => exact absurd ⟨_, _, hb, (det hs hok hi h).2⟩ h2
  | more hi hb hst ih =>
    intro s hs hok hr h'
    subst hr
    cases h' with
    | noItem hn => exact absurd hi (hn _ _)
    | noDelimiter h _ h2 => exact absurd ⟨_, _, hb, (det hs hok h hi).2⟩ h2
    | more h hb' hst' =>
      obtain ⟨rfl, he⟩ := det hs hok hi h
      have := (split_unique hb hb' hsp hsp he).2.2
      subst this
      rw [ih (adv_plain hs [] _) (R.adv hok _ _) rfl hst']

/-- Items of a reader that may throw, each followed by a separator, from stream `s` to stream `s'`. -/
inductive Got (rd : IStream → Res T × IStream) (sep : Char) : IStream → List T → IStream → Prop where
  | nil {s} : Got rd sep s [] s
  | cons {s s1 s2 s' x xs} : s.eof = false → rd s = (.ok x, s1) → s1.failed = false →
      s1.readChar (some sep) = (some sep, s2) → Got rd sep s2 xs s' → Got rd sep s (x :: xs) s'

theorem readLoopS_got {rd : IStream → Res T × IStream} {closing sep : Char} (hcs : sep ≠ closing) {s s' : IStream} {xs : List T}
    (h : Got rd sep s xs s') : ∀ (fuel : Nat) (v : List T),
    readLoopS rd closing sep (fuel + xs.length) sep v s = readLoopS rd closing sep fuel sep (v ++ xs) s' := by
  induction h with
  | nil => intro fuel v; simp
  | @cons s s1 s2 s' x xs h1 h2 h3 h4 _ ih =>
    intro fuel v
    rw [List.length_cons, ← Nat.add_assoc, readLoopS]
    simp only [hcs, h1, h2, h3, h4, ne_eq, not_false_eq_true, if_true, not_true_eq_false, if_false, Bool.false_eq_true, ih]
    simp

/-- C87: an exception of the reader of an item is passed on, and the items before are in the container. -/
theorem C87_throw {rd : IStream → Res T × IStream} {closing sep : Char} (hcs : sep ≠ closing) {s s' s'' : IStream} {xs : List T}
    (h : Got rd sep s xs s') (he : s'.eof = false) {e : Exn} (ht : rd s' = (.exn e, s'')) (fuel : Nat) (v : List T) :
    readLoopS rd closing sep (fuel + 1 + xs.length) sep v s = some (.exn e, v ++ xs, s'') := by
  rw [readLoopS_got hcs h, readLoopS]
  simp [hcs, he, ht]

/-- C87: undefined behaviour and termination in the reader of an item are not hidden. -/
theorem C87_undefined {rd : IStream → Res T × IStream} {closing sep : Char} (hcs : sep ≠ closing) {s s' s'' : IStream} {xs : List T}
    (h : Got rd sep s xs s') (he : s'.eof = false) (fuel : Nat) (v : List T) :
    (∀ u, rd s' = (.ub u, s'') → readLoopS rd closing sep (fuel + 1 + xs.length) sep v s = some (.ub u, v ++ xs, s'')) ∧
    (rd s' = (.abort, s'') → readLoopS rd closing sep (fuel + 1 + xs.length) sep v s = some (.abort, v ++ xs, s'')) := by
  refine ⟨fun u ht => ?_, fun ht => ?_⟩ <;>
    (rw [readLoopS_got hcs h, readLoopS]; simp [hcs, he, ht])

example : Got (fun s => ((.ub .indeterminate : Res Int), s)) ',' (.ofList ['1']) [] (.ofList ['1']) ∧
    readLoopS (fun s => ((.ub .indeterminate : Res Int), s)) ']' ',' 1 ',' [7] (.ofList ['1']) =
      some (.ub .indeterminate, [7], .ofList ['1']) := ⟨.nil, rfl⟩

/-! Examples: a number out of range, a missing separator, and the end of the text. -/

def ints : IStream → Res Int × IStream := noThrow fun s => s.readInt (-128) 127 0
def contents (text : String) : Option (Res Unit × List Int) :=
  (readSequenceS 40 ints (.ofList text.toList) [9, 9, 9] '[' ']' ',').map fun r => (r.1, r.2.1)

example : contents "[1,2,200,4]" = some (.exn .iosFailure, [1, 2]) := by decide +kernel
example : contents "[1,2 3]" = some (.exn .iosFailure, [1, 2]) := by decide +kernel
example : contents "[1,2 " = some (.exn .iosFailure, [1, 2]) := by decide +kernel
example : contents "(1,2)" = some (.exn .iosFailure, []) := by decide +kernel
example : contents "[1,2]x" = some (.ok (), [1, 2]) := by decide +kernel
example : Stops (IntItem (-128) 127) ']' ',' "x".toList [] :=
  .noItem fun x r ⟨b, sign, ds, hb, hs, hne, hds, _, hinp, _⟩ => by
    obtain ⟨d, ds', rfl⟩ := List.exists_cons_of_ne_nil hne
    have hd := hds d (by simp)
    rcases b with _ | ⟨c, b⟩
    · rcases hs with rfl | rfl | rfl <;> simp at hinp
      exact absurd hd.2 (by rw [← hinp.1]; decide)
    · simp at hinp

end Helper.Seq
