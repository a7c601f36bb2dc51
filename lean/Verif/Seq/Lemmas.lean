import Verif.Stream.Lemmas
set_option linter.unusedSectionVars false
namespace Helper.Seq
open IStream

variable {T : Type u} {K : Type v}

theorem adv_adv (s : IStream) (t1 r1 t2 r2 : List Char) :
    (s.adv t1 r1).adv t2 r2 = s.adv (t1 ++ t2) r2 := by
  simp [adv]

/-- The contract between an item's `operator>>` and its grammar. -/
structure Reads (ok : IStream → Prop) (rd : IStream → T × IStream) (Item : ItemGrammar T) : Prop where
  reads : ∀ {s x rest}, s.Plain → ok s → Item s.rest x rest →
    ∃ t, s.rest = t ++ rest ∧ rd s = (x, { s.adv t rest with eof := rest.isEmpty })
  item : ∀ {s}, s.Plain → ok s → (rd s).2.failed = false → Item s.rest (rd s).1 (rd s).2.rest
  notGood : ∀ {s}, s.good = false → (rd s).2.failed = true
  adv : ∀ {s}, ok s → ∀ t r, ok (s.adv t r)
  blanks : ∀ {b y r x rest}, Blank b → isSpace y = false →
    (Item (b ++ y :: r) x rest ↔ Item (y :: r) x rest)

theorem intItem_blanks {lo hi : Int} {b : List Char} {y : Char} {r : List Char} {x : Int}
    {rest : List Char} (hb : Blank b) (hy : isSpace y = false) :
    IntItem lo hi (b ++ y :: r) x rest ↔ IntItem lo hi (y :: r) x rest := by
  constructor
  · rintro ⟨b', sign, ds, hb', hsign, hne, hds, hrest, hinp, hx⟩
    refine ⟨[], sign, ds, blank_nil, hsign, hne, hds, hrest, ?_, hx⟩
    obtain ⟨d, ds', rfl⟩ := List.exists_cons_of_ne_nil hne
    have hd : isSpace d = false := isDigit_not_space (isDigit_iff.2 (hds d (by simp)))
    rcases hsign with rfl | rfl | rfl
    · have := split_unique hb hb' hy hd (r' := ds' ++ rest) (by rw [hinp]; simp)
      simp [this]
    · have := split_unique hb hb' hy (x' := '+') (by decide) (r' := d :: ds' ++ rest) (by rw [hinp]; simp)
      simp [this]
    · have := split_unique hb hb' hy (x' := '-') (by decide) (r' := d :: ds' ++ rest) (by rw [hinp]; simp)
      simp [this]
  · rintro ⟨b', sign, ds, hb', hsign, hne, hds, hrest, hinp, hx⟩
    refine ⟨b ++ b', sign, ds, ?_, hsign, hne, hds, hrest, by rw [hinp]; simp, hx⟩
    intro c hc
    rcases List.mem_append.1 hc with h | h
    · exact hb c h
    · exact hb' c h

theorem reads_int (lo hi x0 : Int) :
    Reads (fun _ => True) (fun s => s.readInt lo hi x0) (IntItem lo hi) :=
  ⟨fun h _ hi => readInt_ok h x0 hi, fun h _ hf => readInt_item h x0 hf,
   fun h => readInt_notGood h x0, fun _ _ _ => trivial,
   fun hb hy => intItem_blanks hb hy⟩

theorem reads_bit (b0 : Bool) :
    Reads (fun s => s.boolalpha = false) (fun s => s.readBool b0) BitItem :=
  ⟨fun h hb hi => readBool_ok h hb b0 hi, fun h hb hf => readBool_item h hb b0 hf,
   fun h => readBool_notGood h b0, fun h _ _ => h,
   fun hb hy => intItem_blanks hb hy⟩

variable {ok : IStream → Prop} {rd : IStream → T × IStream} {Item : ItemGrammar T}

theorem eof_cons (s : IStream) (h : s.Plain) (t : List Char) {r : List Char} (hr : r ≠ []) :
    { s.adv t r with eof := r.isEmpty } = s.adv t r := by
  cases r with
  | nil => exact absurd rfl hr
  | cons c r => simp [adv, h.eof]

/-- On a text of the grammar the loop succeeds. -/
theorem readLoop_ok (R : Reads ok rd Item) {closing sep : Char} (hc : isSpace closing = false)
    (hsp : isSpace sep = false) (hcs : sep ≠ closing) {inp : List Char} {xs : List T}
    {rest : List Char} (hi : Items Item closing sep inp xs rest) :
    ∀ (fuel : Nat) (v : List T) (s : IStream), xs.length < fuel → s.Plain → ok s → s.rest = inp →
      ∃ t, inp = t ++ rest ∧
        readLoop rd closing sep fuel sep v s = some (.ok (v ++ xs, s.adv t rest)) := by
  induction hi with
  | @last inp x b rest hit hb =>
    intro fuel v s hfuel hs hok hrest
    rw [← hrest] at hit
    obtain ⟨t, ht, hrd⟩ := R.reads hs hok hit
    refine ⟨t ++ b ++ [closing], by rw [← hrest, ht]; simp, ?_⟩
    match fuel, hfuel with
    | fuel + 2, _ =>
      rw [eof_cons s hs t (by simp)] at hrd
      have hp := adv_plain hs t (b ++ closing :: rest)
      have hrc := readChar_split hp hb hc rfl (some sep)
      rw [adv_adv] at hrc
      have hnf : (s.adv t (b ++ closing :: rest)).failed = false := by simp [failed, hp.fail, hp.bad]
      simp only [readLoop, hs.eof, hrd, hrc, ne_eq, hcs, not_true_eq_false, not_false_eq_true,
        if_true, if_false, Bool.false_eq_true, hnf]
      simp
  | @more inp x b tail xs rest hit hb _ ih =>
    intro fuel v s hfuel hs hok hrest
    rw [← hrest] at hit
    obtain ⟨t, ht, hrd⟩ := R.reads hs hok hit
    match fuel, hfuel with
    | fuel + 1, hfuel =>
      rw [eof_cons s hs t (by simp)] at hrd
      have hp := adv_plain hs t (b ++ sep :: tail)
      have hrc := readChar_split hp hb hsp rfl (some sep)
      rw [adv_adv] at hrc
      obtain ⟨t', ht', hloop⟩ := ih fuel (v ++ [x]) (s.adv (t ++ (b ++ [sep])) tail)
        (by simp at hfuel; omega) (adv_plain hs _ _) (R.adv hok _ _) rfl
      refine ⟨t ++ (b ++ [sep]) ++ t', by rw [← hrest, ht, ht']; simp, ?_⟩
      have hnf : (s.adv t (b ++ sep :: tail)).failed = false := by simp [failed, hp.fail, hp.bad]
      rw [adv_adv] at hloop
      simp only [readLoop, hs.eof, hrd, hrc, ne_eq, hcs, not_true_eq_false, not_false_eq_true,
        if_true, if_false, Bool.false_eq_true, hnf, hloop]
      simp

/-- The loop either succeeds on a text of the grammar, or throws. -/
theorem readLoop_total (R : Reads ok rd Item) {closing sep : Char} (hc : isSpace closing = false)
    (hsp : isSpace sep = false) (hcs : sep ≠ closing) :
    ∀ (fuel : Nat) (v : List T) (s : IStream), s.rest.length + 2 ≤ fuel → s.Plain → ok s →
      (∃ xs rest t, Items Item closing sep s.rest xs rest ∧ s.rest = t ++ rest ∧
        readLoop rd closing sep fuel sep v s = some (.ok (v ++ xs, s.adv t rest))) ∨
      ((∀ xs rest, ¬ Items Item closing sep s.rest xs rest) ∧
        readLoop rd closing sep fuel sep v s = some (.exn .iosFailure)) := by
  intro fuel
  induction fuel with
  | zero => intro v s h; omega
  | succ fuel ih =>
    intro v s hfuel hs hok
    obtain ⟨fuel, rfl⟩ : ∃ k, fuel = k + 1 := ⟨fuel - 1, by omega⟩
    by_cases hf : (rd s).2.failed = true
    · right
      refine ⟨fun xs rest hi => ?_, ?_⟩
      · have : ∃ x r1, Item s.rest x r1 := by
          cases hi with
          | last h _ => exact ⟨_, _, h⟩
          | more h _ _ => exact ⟨_, _, h⟩
        obtain ⟨x, r1, hit⟩ := this
        obtain ⟨t, _, hrd⟩ := R.reads hs hok hit
        rw [hrd] at hf
        simp [failed, adv, hs.fail, hs.bad] at hf
      · rw [readLoop]
        simp [hcs, hs.eof, hf]
    · have hf : (rd s).2.failed = false := by simpa using hf
      have hit := R.item hs hok hf
      obtain ⟨t, ht, hrd⟩ := R.reads hs hok hit
      generalize hx : (rd s).1 = x at *
      generalize hr1 : (rd s).2.rest = r1 at *
      -- the item is determined
      have hdet : ∀ x' r', Item s.rest x' r' → x' = x ∧ r' = r1 := by
        intro x' r' h'
        obtain ⟨t', _, hrd'⟩ := R.reads hs hok h'
        rw [hrd] at hrd'
        simp only [Prod.mk.injEq] at hrd'
        have := congrArg IStream.rest hrd'.2
        exact ⟨hrd'.1.symm, this.symm⟩
      have hnoItems : (¬ StartsWith closing r1 ∧ ¬ StartsWith sep r1) →
          ∀ xs rest, ¬ Items Item closing sep s.rest xs rest := by
        intro hn xs rest hi
        cases hi with
        | last h hb => exact hn.1 ⟨_, _, hb, (hdet _ _ h).2.symm⟩
        | more h hb _ => exact hn.2 ⟨_, _, hb, (hdet _ _ h).2.symm⟩
      rcases blank_or_split r1 with hb | ⟨b, y, r2, hb, hy, hr⟩
      · -- nothing but blanks after the item
        right
        have hns : ∀ d, isSpace d = false → ¬ StartsWith d r1 := by
          rintro d hd ⟨b, r, _, heq⟩
          rw [heq] at hb
          exact not_blank_split hd hb
        refine ⟨hnoItems ⟨hns _ hc, hns _ hsp⟩, ?_⟩
        by_cases hr0 : r1 = []
        · subst hr0
          have hng : (IStream.good { s.adv t [] with eof := true }) = false := by simp [IStream.good]
          have hnf : (IStream.failed { s.adv t [] with eof := true }) = false := by
            simp [failed, adv, hs.fail, hs.bad]
          rw [readLoop]
          simp only [List.isEmpty_nil] at hrd
          simp only [hrd, readChar_notGood hng, hnf]
          simp only [hcs, ne_eq, not_false_eq_true, if_true, hs.eof, not_true_eq_false, if_false,
            Bool.false_eq_true]
          rw [readLoop]
          simp [hcs]
        · rw [eof_cons s hs t hr0] at hrd
          have hp := adv_plain hs t r1
          have hnf : (s.adv t r1).failed = false := by simp [failed, hp.fail, hp.bad]
          rw [readLoop]
          simp only [hrd, readChar_blank hp hb, hnf]
          simp only [hcs, ne_eq, not_false_eq_true, if_true, hs.eof, not_true_eq_false, if_false,
            Bool.false_eq_true]
          rw [readLoop]
          simp [hcs]
      · have hne : r1 ≠ [] := by rw [hr]; simp
        rw [eof_cons s hs t hne] at hrd
        have hp := adv_plain hs t r1
        have hnf : (s.adv t r1).failed = false := by simp [failed, hp.fail, hp.bad]
        have hrc := readChar_split hp hb hy hr (some sep)
        rw [adv_adv] at hrc
        have hstep : readLoop rd closing sep (fuel + 1 + 1) sep v s =
            readLoop rd closing sep (fuel + 1) y (v ++ [x]) (s.adv (t ++ (b ++ [y])) r2) := by
          rw [readLoop]
          simp only [hrd, hrc, hnf]
          simp only [hcs, ne_eq, not_false_eq_true, if_true, hs.eof, not_true_eq_false, if_false,
            Bool.false_eq_true]
        rw [hstep]
        have hlen : s.rest.length = t.length + r1.length := by rw [ht]; simp
        have hlen1 : r1.length = b.length + r2.length + 1 := by rw [hr]; simp; omega
        have hdelim : ∀ d, isSpace d = false → StartsWith d r1 → d = y := by
          rintro d hd ⟨b', r', hb', heq⟩
          rw [hr] at heq
          exact (split_unique hb hb' hy hd heq).2.1.symm
        by_cases hyc : y = closing
        · left
          refine ⟨[x], r2, t ++ (b ++ [y]), .last (b := b) ?_ hb, by rw [ht, hr]; simp, ?_⟩
          · rw [← hyc, ← hr]; exact hit
          · rw [readLoop]; simp [hyc]
        · by_cases hys : y = sep
          · rw [hys] at hr ⊢
            have hfuel' : (s.adv (t ++ (b ++ [sep])) r2).rest.length + 2 ≤ fuel + 1 := by
              show r2.length + 2 ≤ fuel + 1
              omega
            rcases ih (v ++ [x]) (s.adv (t ++ (b ++ [sep])) r2) hfuel' (adv_plain hs _ _)
                (R.adv hok _ _) with ⟨xs, rest, t', hi', ht', hl⟩ | ⟨hno, hl⟩
            · left
              refine ⟨x :: xs, rest, t ++ (b ++ [sep]) ++ t', .more (b := b) (tail := r2) ?_ hb hi', ?_, ?_⟩
              · rw [← hr]; exact hit
              · have ht'' : r2 = t' ++ rest := ht'
                rw [ht, hr, ht'']; simp
              · rw [hl, adv_adv]; simp
            · right
              refine ⟨fun xs rest hi => ?_, hl⟩
              cases hi with
              | last h hb' =>
                have h2 := (hdet _ _ h).2
                exact hyc ((hdelim closing hc ⟨_, _, hb', h2.symm⟩).symm)
              | more h hb' hi' =>
                have h2 := (hdet _ _ h).2
                rw [hr] at h2
                have h3 := (split_unique hb' hb hsp hsp h2).2.2
                subst h3
                exact hno _ _ hi'
          · right
            refine ⟨hnoItems ⟨fun h => hyc (hdelim _ hc h).symm, fun h => hys (hdelim _ hsp h).symm⟩, ?_⟩
            rw [readLoop]
            have he : (s.adv (t ++ (b ++ [y])) r2).eof = false := hs.eof
            simp [hyc, hys, he]

theorem items_blanks (R : Reads ok rd Item) {closing sep : Char} {b : List Char} {y : Char}
    {r : List Char} {xs : List T} {rest : List Char} (hb : Blank b) (hy : isSpace y = false) :
    Items Item closing sep (b ++ y :: r) xs rest ↔ Items Item closing sep (y :: r) xs rest := by
  constructor
  · intro h
    cases h with
    | last h h' => exact .last ((R.blanks hb hy).1 h) h'
    | more h h' h'' => exact .more ((R.blanks hb hy).1 h) h' h''
  · intro h
    cases h with
    | last h h' => exact .last ((R.blanks hb hy).2 h) h'
    | more h h' h'' => exact .more ((R.blanks hb hy).2 h) h' h''

end Helper.Seq
