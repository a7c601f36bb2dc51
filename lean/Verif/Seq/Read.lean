import Verif.Seq.Lemmas
set_option linter.unusedSectionVars false
namespace Helper.Seq
open IStream

variable {T : Type u} {ok : IStream → Prop} {rd : IStream → T × IStream} {Item : ItemGrammar T}

theorem not_startsWith {c y : Char} {b r : List Char} (hb : Blank b) (hc : isSpace c = false)
    (hy : isSpace y = false) (h : y ≠ c) : ¬ StartsWith c (b ++ y :: r) := by
  rintro ⟨b', r', hb', heq⟩
  exact h (split_unique hb hb' hy hc heq).2.1

theorem not_startsWith_blank {c : Char} {b : List Char} (hb : Blank b) (hc : isSpace c = false) :
    ¬ StartsWith c b := by
  rintro ⟨b', r', _, heq⟩
  rw [heq] at hb
  exact not_blank_split hc hb

/-- On a text of the grammar `read_sequence` succeeds. -/
theorem readSequence_ok (R : Reads ok rd Item) {opening closing sep : Char}
    (ho : isSpace opening = false) (hc : isSpace closing = false) (hsp : isSpace sep = false)
    (hcs : sep ≠ closing) {s : IStream} (hs : s.Plain) (hok : ok s) (v xs : List T)
    {rest : List Char} (h : Sequence Item opening closing sep s.rest xs rest)
    (fuel : Nat) (hfuel : xs.length < fuel) :
    ∃ t, s.rest = t ++ rest ∧
      readSequence fuel rd s v opening closing sep = some (.ok (xs, s.adv t rest)) := by
  obtain ⟨b, body, hb, hinp, hcase⟩ := h
  have h1 := readChar_split hs hb ho hinp none
  have hp1 := adv_plain hs (b ++ [opening]) body
  rcases hcase with ⟨rfl, b', hb', hbody⟩ | ⟨hns, hi⟩
  · have h2 := readChar_split hp1 hb' hc (show (s.adv (b ++ [opening]) body).rest = _ from hbody)
      (some opening)
    rw [adv_adv] at h2
    refine ⟨b ++ [opening] ++ (b' ++ [closing]), by rw [hinp, hbody]; simp, ?_⟩
    match fuel, hfuel with
    | fuel + 1, _ => simp [readSequence, h1, h2, readLoop]
  · rcases blank_or_split body with hbb | ⟨b', y, r, hb', hy, hbody⟩
    · -- impossible: an item needs a closing delimiter
      exfalso
      have hitem : ∃ x r1 d, isSpace d = false ∧ Item body x r1 ∧ d ∈ r1 := by
        cases hi with
        | last h hb => exact ⟨_, _, closing, hc, h, by simp⟩
        | more h hb _ => exact ⟨_, _, sep, hsp, h, by simp⟩
      obtain ⟨x, r1, d, hd, hit, hdr⟩ := hitem
      obtain ⟨t, ht, _⟩ := R.reads hp1 (R.adv hok _ _) (show Item (s.adv (b ++ [opening]) body).rest x r1 from hit)
      have ht' : body = t ++ r1 := ht
      have := hbb d (by rw [ht']; simp [hdr])
      rw [hd] at this; simp at this
    · have hyc : y ≠ closing := fun e => hns ⟨b', r, hb', by rw [hbody, e]⟩
      have h2 := readChar_split hp1 hb' hy (show (s.adv (b ++ [opening]) body).rest = _ from hbody)
        (some opening)
      have h3 := putback_adv hp1 b' y r
      rw [adv_adv] at h2 h3
      rw [hbody, items_blanks R hb' hy] at hi
      obtain ⟨t, ht, hl⟩ := readLoop_ok R hc hsp hcs hi fuel [] (s.adv (b ++ [opening] ++ b') (y :: r))
        hfuel (adv_plain hs _ _) (R.adv hok _ _) rfl
      refine ⟨b ++ [opening] ++ b' ++ t, by rw [hinp, hbody, ht]; simp, ?_⟩
      rw [adv_adv] at h3 hl
      simp only [readSequence, h1, h2, h3, hl, hyc, ne_eq, not_true_eq_false, not_false_eq_true,
        if_true, if_false, List.drop_length, List.nil_append]

/-- On every other text with a non-blank character it throws. -/
theorem readSequence_total (R : Reads ok rd Item) {opening closing sep : Char}
    (ho : isSpace opening = false) (hc : isSpace closing = false) (hsp : isSpace sep = false)
    (hcs : sep ≠ closing) (hoc : opening ≠ closing) {s : IStream} (hs : s.Plain) (hok : ok s)
    (v : List T) (hnb : ¬ Blank s.rest) (fuel : Nat) (hfuel : s.rest.length + 2 ≤ fuel) :
    (∃ xs rest t, Sequence Item opening closing sep s.rest xs rest ∧ s.rest = t ++ rest ∧
      readSequence fuel rd s v opening closing sep = some (.ok (xs, s.adv t rest))) ∨
    ((∀ xs rest, ¬ Sequence Item opening closing sep s.rest xs rest) ∧
      readSequence fuel rd s v opening closing sep = some (.exn .iosFailure)) := by
  rcases blank_or_split s.rest with hb | ⟨b, c, body, hb, hcs', hinp⟩
  · exact absurd hb hnb
  have h1 := readChar_split hs hb hcs' hinp none
  by_cases hco : c = opening
  · subst hco
    have hp1 := adv_plain hs (b ++ [c]) body
    have hbodyEq : ∀ b' body', Blank b' → s.rest = b' ++ c :: body' → body' = body := by
      intro b' body' hb' h
      rw [hinp] at h
      exact (split_unique hb hb' ho ho h).2.2.symm
    rcases blank_or_split body with hbb | ⟨b', y, r, hb', hy, hbody⟩
    · right
      refine ⟨?_, ?_⟩
      · rintro xs rest ⟨b2, body2, hb2, hinp2, hcase⟩
        have := hbodyEq _ _ hb2 hinp2
        subst this
        rcases hcase with ⟨_, b3, _, h3⟩ | ⟨_, hi⟩
        · exact not_startsWith_blank hbb hc ⟨b3, rest, ‹_›, h3⟩
        · have hitem : ∃ x r1 d, isSpace d = false ∧ Item body2 x r1 ∧ d ∈ r1 := by
            cases hi with
            | last h hb => exact ⟨_, _, closing, hc, h, by simp⟩
            | more h hb _ => exact ⟨_, _, sep, hsp, h, by simp⟩
          obtain ⟨x, r1, d, hd, hit, hdr⟩ := hitem
          obtain ⟨t, ht, _⟩ := R.reads hp1 (R.adv hok _ _)
            (show Item (s.adv (b ++ [c]) body2).rest x r1 from hit)
          have ht' : body2 = t ++ r1 := ht
          have := hbb d (by rw [ht']; simp [hdr])
          rw [hd] at this; simp at this
      · have h2 := readChar_blank hp1 (show Blank (s.adv (b ++ [c]) body).rest from hbb) (some c)
        obtain ⟨fuel, rfl⟩ : ∃ k, fuel = k + 1 := ⟨fuel - 1, by omega⟩
        simp only [readSequence, h1, h2, hoc, ne_eq, not_true_eq_false, not_false_eq_true,
          if_true, if_false]
        rw [putback_failed rfl]
        simp only [readLoop, ne_eq, hcs, not_true_eq_false, not_false_eq_true, if_true, if_false,
          Bool.false_eq_true]
        rw [if_pos (R.notGood (by simp [IStream.good]))]
    · have h2 := readChar_split hp1 hb' hy (show (s.adv (b ++ [c]) body).rest = _ from hbody) (some c)
      by_cases hyc : y = closing
      · left
        subst hyc
        rw [adv_adv] at h2
        refine ⟨[], r, b ++ [c] ++ (b' ++ [y]), ⟨b, body, hb, hinp, .inl ⟨rfl, b', hb', hbody⟩⟩,
          by rw [hinp, hbody]; simp, ?_⟩
        obtain ⟨fuel, rfl⟩ : ∃ k, fuel = k + 1 := ⟨fuel - 1, by omega⟩
        simp [readSequence, h1, h2, readLoop]
      · have h3 := putback_adv hp1 b' y r
        rw [adv_adv] at h2
        rw [adv_adv, adv_adv] at h3
        have hlen : (y :: r).length + 2 ≤ fuel := by
          rw [hinp, hbody] at hfuel; simp at hfuel ⊢; omega
        have hns : ¬ StartsWith closing body := by
          rw [hbody]; exact not_startsWith hb' hc hy hyc
        have hrun : readSequence fuel rd s v c closing sep =
            readLoop rd closing sep fuel sep [] (s.adv (b ++ [c] ++ b') (y :: r)) := by
          simp only [readSequence, h1, h2, h3, hyc, ne_eq, not_true_eq_false, not_false_eq_true,
            if_true, if_false, List.drop_length]
        rw [hrun]
        rcases readLoop_total R hc hsp hcs fuel [] (s.adv (b ++ [c] ++ b') (y :: r)) hlen
            (adv_plain hs _ _) (R.adv hok _ _) with ⟨xs, rest, t, hi, ht, hl⟩ | ⟨hno, hl⟩
        · left
          have ht' : y :: r = t ++ rest := ht
          refine ⟨xs, rest, b ++ [c] ++ b' ++ t, ⟨b, body, hb, hinp, .inr ⟨hns, ?_⟩⟩, ?_, ?_⟩
          · rw [hbody]; exact (items_blanks R hb' hy).2 hi
          · rw [hinp, hbody, ht']; simp
          · rw [hl, adv_adv]; simp
        · right
          refine ⟨?_, hl⟩
          rintro xs rest ⟨b2, body2, hb2, hinp2, hcase⟩
          have := hbodyEq _ _ hb2 hinp2
          subst this
          rcases hcase with ⟨_, b3, hb3, h3⟩ | ⟨_, hi⟩
          · exact hns ⟨b3, rest, hb3, h3⟩
          · rw [hbody] at hi
            exact hno _ _ ((items_blanks R hb' hy).1 hi)
  · right
    refine ⟨?_, by simp [readSequence, h1, hco]⟩
    rintro xs rest ⟨b2, body2, hb2, hinp2, _⟩
    rw [hinp] at hinp2
    exact hco (split_unique hb hb2 hcs' ho hinp2).2.1

end Helper.Seq
