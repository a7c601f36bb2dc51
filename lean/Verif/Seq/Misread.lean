import Verif.Seq.Locale
set_option linter.unusedSectionVars false
/-!
# Property C113: which lists are misread

With groups of `g` digits and commas between them, the text of a list is the text of one number if all numbers but the first have full groups.
-/
namespace Helper.Seq
open IStream OStream

theorem sizesRev_sep (p : Punct) (b : List Char) : ∀ (a : List Char) (c : Char) (n : Nat), p.isSep c = true →
    sizesRev p (a ++ c :: b) n = sizesRev p a n ++ sizesRev p b 0 := by
  intro a
  induction a with
  | nil => intro c n hc; simp [sizesRev, hc]
  | cons d a ih =>
    intro c n hc
    simp only [List.cons_append, sizesRev]
    split
    · rw [ih c 0 hc]; simp
    · exact ih c _ hc

theorem consistent_append {g : Nat} (hg : 0 < g) {b : List Nat} (hb : b ≠ []) : ∀ a : List Nat,
    consistent [g] (a ++ b) = (a.all (· == g) && consistent [g] b) := by
  intro a
  induction a with
  | nil => simp
  | cons n a ih =>
    have hne : a ++ b ≠ [] := by simp [hb]
    rw [List.cons_append, consistent_cons hne]
    simp only [nextSizes, ih, List.all_cons]
    have : (g != 0) = true := by simp; omega
    rw [this, Bool.true_and, Bool.and_assoc]

/-- The groups of a number are all full iff the number of its digits is a multiple of the size. -/
theorem groupRev_full (p : Punct) {g : Nat} (hg : 0 < g) (hp : p.grouping ≠ []) : ∀ (n : Nat) (ds : List Char), ds.length ≤ n → ds ≠ [] →
    (∀ c ∈ ds, p.isSep c = false) →
    ((sizesRev p (groupRev p.sep [g] ds) 0).all (· == g) = true ↔ g ∣ ds.length) := by
  intro n
  induction n with
  | zero =>
    intro ds hl hne
    exact absurd (List.length_eq_zero_iff.1 (by omega)) hne
  | succ n ih =>
    intro ds hl hne hs
    have hpos : 0 < ds.length := List.length_pos_iff.2 hne
    rw [groupRev_cons]
    by_cases h : g = 0 ∨ ds.length ≤ g
    · rw [if_pos h]
      have := sizesRev_plain p [] ds 0 hs
      rw [List.append_nil] at this
      rw [this]
      simp only [sizesRev, Nat.zero_add, List.all_cons, List.all_nil, Bool.and_true, beq_iff_eq]
      constructor
      · intro e; rw [e]; exact Nat.dvd_refl _
      · intro e; have := Nat.le_of_dvd hpos e; omega
    · rw [if_neg h]
      have hsep : p.isSep p.sep = true := by simp [Punct.isSep, hp]
      rw [sizesRev_plain p _ _ _ fun c hc => hs c (List.mem_of_mem_take hc)]
      simp only [sizesRev, hsep, if_true, Nat.zero_add, List.length_take, List.all_cons, Bool.and_eq_true, beq_iff_eq]
      have hm : min g ds.length = g := by omega
      have hd := ih (ds.drop g) (by simp; omega)
        (by intro e; have := congrArg List.length e; simp at this; omega) fun c hc => hs c (List.mem_of_mem_drop hc)
      simp only [nextSizes, hm, true_and]
      rw [hd, List.length_drop]
      constructor
      · rintro ⟨k, hk⟩; exact ⟨k + 1, by rw [Nat.mul_add]; omega⟩
      · rintro ⟨k, hk⟩; exact ⟨k - 1, by rw [Nat.mul_sub]; omega⟩

theorem numeral_append (a b : List Char) : numeral (a ++ b) = numeral a * 10 ^ b.length + numeral b := by
  have key : ∀ (b : List Char) (n : Nat), b.foldl (fun a c => a * 10 + (c.toNat - 48)) n =
      n * 10 ^ b.length + b.foldl (fun a c => a * 10 + (c.toNat - 48)) 0 := by
    intro b
    induction b with
    | nil => intro n; simp
    | cons c b ih =>
      intro n
      simp only [List.foldl_cons, List.length_cons]
      rw [ih (n * 10 + _), ih (0 * 10 + _)]
      generalize c.toNat - 48 = k
      rw [Nat.pow_succ]
      generalize 10 ^ b.length = q
      rw [Nat.add_mul, Nat.add_mul]
      have : n * 10 * q = n * (q * 10) := by rw [Nat.mul_assoc, Nat.mul_comm 10 q]
      omega
  rw [numeral, List.foldl_append, key]; rfl

/-- The number whose digits are those of the given ones, one after another. -/
def joined (n : Nat) : List Nat → Nat
  | [] => n
  | m :: ms => joined (n * 10 ^ (digits m).length + m) ms

theorem joined_digits : ∀ (ms : List Nat) (ds : List Char), numeral (ds ++ ms.flatMap digits) = joined (numeral ds) ms := by
  intro ms
  induction ms with
  | nil => intro ds; simp [joined]
  | cons m ms ih =>
    intro ds
    rw [List.flatMap_cons, ← List.append_assoc, ih, numeral_append, (digits_spec m).1, joined]

/-- The digits and commas of a list of numbers that are not negative. -/
def listRun (p : Punct) (n : Nat) (ms : List Nat) : List Char := groupText p n ++ ms.flatMap (fun m => ',' :: groupText p m)

theorem listRun_sizes {p : Punct} (hg : p.grouping ≠ []) (hc : p.sep = ',') (n : Nat) : ∀ ms : List Nat,
    ∃ l, sizesRev p (listRun p n ms).reverse 0 = l ++ sizesRev p (groupText p n).reverse 0 ∧
      ∀ q : Nat → Bool, (l.all q = true ↔ ∀ m ∈ ms, (sizesRev p (groupText p m).reverse 0).all q = true) := by
  intro ms
  have hs : p.isSep ',' = true := by simp [Punct.isSep, hg, hc]
  suffices h : ∀ (ms : List Nat) (a : List Char),
      ∃ l, sizesRev p (a ++ ms.flatMap (fun m => ',' :: groupText p m)).reverse 0 = l ++ sizesRev p a.reverse 0 ∧
        ∀ q : Nat → Bool, (l.all q = true ↔ ∀ m ∈ ms, (sizesRev p (groupText p m).reverse 0).all q = true) by
    exact h ms _
  intro ms
  induction ms with
  | nil => intro a; exact ⟨[], by simp, by simp⟩
  | cons m ms ih =>
    intro a
    obtain ⟨l, h1, h2⟩ := ih (a ++ ',' :: groupText p m)
    refine ⟨l ++ sizesRev p (groupText p m).reverse 0, ?_, ?_⟩
    · rw [List.flatMap_cons, ← List.append_assoc, h1]
      rw [List.reverse_append, List.reverse_cons, List.append_assoc, List.singleton_append, sizesRev_sep p _ _ _ _ hs, List.append_assoc]
    · intro q
      rw [List.all_append, Bool.and_eq_true, h2 q]
      simp only [List.mem_cons, forall_eq_or_imp]
      exact and_comm

theorem listRun_filter {p : Punct} (hg : p.grouping ≠ []) (hc : p.sep = ',') (n : Nat) (ms : List Nat) :
    (listRun p n ms).filter (fun c => !p.isSep c) = digits n ++ ms.flatMap digits := by
  have hd : p.Digits := digits_of_sep (.inr (by rw [hc]; decide))
  have hs : p.isSep ',' = true := by simp [Punct.isSep, hg, hc]
  rw [listRun, List.filter_append, groupText_digits p hd]
  congr 1
  induction ms with
  | nil => rfl
  | cons m ms ih =>
    rw [List.flatMap_cons, List.flatMap_cons, List.filter_append, ih, List.filter_cons]
    simp [hs, groupText_digits p hd]

/-- What is extracted if all numbers but the first are not negative. -/
theorem listRun_taken {p : Punct} (hg : p.grouping ≠ []) (hc : p.sep = ',') (rest : List Char) (n : Nat) (ms : List Nat) :
    (listRun p n ms ++ ']' :: rest).takeWhile p.isNum = listRun p n ms ∧
    (listRun p n ms ++ ']' :: rest).dropWhile p.isNum = ']' :: rest := by
  have hcomma : p.isNum ',' = true := by simp [Punct.isNum, Punct.isSep, hg, hc]
  have hbr : p.isNum ']' = false := by simp [Punct.isNum, Punct.isSep, hc, isDigit]
  refine takeWhile_run ?_ hbr
  intro c h
  rcases List.mem_append.1 h with h | h
  · exact groupText_num p _ c h
  · obtain ⟨m, _, h⟩ := List.mem_flatMap.1 h
    rcases List.mem_cons.1 h with h | h
    · rw [h]; exact hcomma
    · exact groupText_num p _ c h

/-- The text is accepted as one number iff all numbers but the first have full groups. -/
theorem listRun_consistent {g : Nat} (hg : 0 < g) (n : Nat) (ms : List Nat) :
    consistent [g] (sizesRev ⟨',', [g]⟩ (listRun ⟨',', [g]⟩ n ms).reverse 0) = true ↔ ∀ m ∈ ms, g ∣ (digits m).length := by
  have hp : (⟨',', [g]⟩ : Punct).grouping ≠ [] := by simp
  have hd : (⟨',', [g]⟩ : Punct).Digits := digits_of_sep (.inr (by decide : isDigit ',' = false))
  obtain ⟨l, h1, h2⟩ := listRun_sizes hp rfl n ms
  rw [h1, consistent_append hg (sizesRev_ne _ _ _), Bool.and_eq_true, h2]
  have hlast : consistent [g] (sizesRev ⟨',', [g]⟩ (groupText ⟨',', [g]⟩ n).reverse 0) = true := by
    rw [groupText, List.reverse_reverse]
    exact groupRev_consistent _ _ _ _ (Nat.le_refl _) (by simp) hp (by simp [digits_ne_nil])
      fun c hc => hd c (digits_isDigit n c (List.mem_reverse.1 hc))
  rw [hlast]
  simp only [and_true]
  refine forall_congr' fun m => imp_congr_right fun _ => ?_
  rw [groupText, List.reverse_reverse]
  have := groupRev_full ⟨',', [g]⟩ hg hp (digits m).reverse.length (digits m).reverse (Nat.le_refl _) (by simp [digits_ne_nil])
      fun c hc => hd c (digits_isDigit m c (List.mem_reverse.1 hc))
  rw [List.length_reverse] at this
  exact this

/-- What the reader of a number does with the first number of a list and the text after it. -/
theorem readNum_run {p : Punct} (lo hi x : Int) {s : IStream} (hs : s.Plain) (w : List Char) (hr : s.rest = numText p x ++ w) (x0 : Int)
    (run rest' : List Char) (hrun : groupText p x.natAbs ++ w.takeWhile p.isNum = run) (hrest : w.dropWhile p.isNum = rest') (hne : rest' ≠ [])
    (ds : List Char) (hds : run.filter (fun c => !p.isSep c) = ds) (hdne : ds ≠ [])
    (v : Int) (hv : (if x < 0 then - (digitsValue 0 ds : Int) else (digitsValue 0 ds : Int)) = v)
    (bad : Bool) (hbad : (run.any p.isSep && !consistent p.grouping (sizesRev p run.reverse 0)) = bad) :
    if lo ≤ v ∧ v ≤ hi ∧ bad = false then ∃ t, readNum p lo hi s x0 = (v, s.adv t rest')
    else (readNum p lo hi s x0).2.failed = true := by
  obtain ⟨c, t, ht, hsp, _⟩ := begins_num p x
  have hsen := sentry_split hs (b := []) (x := c) (r := t ++ w) blank_nil hsp (by rw [hr, ht]; rfl)
  obtain ⟨c', t', ht', hc'⟩ := groupText_head p x.natAbs
  have hsign : signLength (numText p x ++ w) = (if x < 0 then 1 else 0) := by
    rw [numText_eq]
    by_cases hx : x < 0
    · simp [hx, signLength]
    · simp only [hx, if_false, List.nil_append, ht', List.cons_append]
      unfold signLength
      split
      · rename_i e; injection e with e _; rw [e] at hc'; exact absurd hc' (by decide)
      · rename_i e; injection e with e _; rw [e] at hc'; exact absurd hc' (by decide)
      · rfl
  have hdrop : (numText p x ++ w).drop (if x < 0 then 1 else 0) = groupText p x.natAbs ++ w := by
    rw [numText_eq]; split <;> simp
  have htake : ((numText p x ++ w).take (if x < 0 then 1 else 0) = ['-']) = (x < 0) := by
    rw [numText_eq]
    by_cases hx : x < 0 <;> simp [hx]
  have hall : ∀ c ∈ groupText p x.natAbs, p.isNum c = true := groupText_num p _
  have htw : (groupText p x.natAbs ++ w).takeWhile p.isNum = run := by
    rw [List.takeWhile_append_of_pos hall, hrun]
  have hdw : (groupText p x.natAbs ++ w).dropWhile p.isNum = rest' := by
    rw [List.dropWhile_append_of_pos hall, hrest]
  have hrest1 : (s.adv [] (c :: (t ++ w))).rest = numText p x ++ w := by rw [ht]; rfl
  have hsf : s.fail = false := hs.fail
  have hse : s.eof = false := hs.eof
  have hrn : rest'.isEmpty = false := by cases rest' with
    | nil => exact absurd rfl hne
    | cons _ _ => rfl
  have hdn : ds.isEmpty = false := by cases ds with
    | nil => exact absurd rfl hdne
    | cons _ _ => rfl
  simp only [readNum, hsen]
  simp only [if_true, extractNum, hrest1, hsign, hdrop, htw, hdw, hds, htake, hv, hbad, hdn, hrn, Bool.false_eq_true, if_false]
  by_cases h1 : v < lo
  · rw [if_neg (fun h => by omega), if_pos h1]; simp [IStream.failed]
  · rw [if_neg h1]
    by_cases h2 : hi < v
    · rw [if_neg (fun h => by omega), if_pos h2]; simp [IStream.failed]
    · rw [if_neg h2]
      cases bad with
      | true => rw [if_neg (fun h => by simp at h)]; simp [IStream.failed]
      | false =>
        rw [if_pos ⟨by omega, by omega, rfl⟩]
        exact ⟨(numText p x ++ w).take (if x < 0 then 1 else 0) ++ run, by simp [adv, hsf, hse]⟩

/-- A negative number ends the run after a comma. -/
theorem comma_run_neg {p : Punct} (hg : p.grouping ≠ []) (hc : p.sep = ',') (rest : List Char) : ∀ xs : List Int, (∃ x ∈ xs, x < 0) →
    ∃ pre r, (xs.flatMap (fun x => ',' :: numText p x) ++ ']' :: rest).takeWhile p.isNum = pre ++ [','] ∧
      (xs.flatMap (fun x => ',' :: numText p x) ++ ']' :: rest).dropWhile p.isNum = '-' :: r := by
  have hcomma : p.isNum ',' = true := by simp [Punct.isNum, Punct.isSep, hg, hc]
  have hminus : p.isNum '-' = false := by simp [Punct.isNum, Punct.isSep, hc, isDigit]
  intro xs
  induction xs with
  | nil => rintro ⟨x, h, _⟩; simp at h
  | cons x xs ih =>
    intro hex
    rw [List.flatMap_cons, List.cons_append, List.cons_append, List.append_assoc]
    generalize hw : (xs.flatMap (fun x => ',' :: numText p x) ++ ']' :: rest) = w at ih
    by_cases hx : x < 0
    · refine ⟨[], groupText p x.natAbs ++ w, ?_, ?_⟩
      · simp [numText_eq, hx, hcomma, hminus]
      · simp [numText_eq, hx, hcomma, hminus]
    · have hall : ∀ c ∈ groupText p x.natAbs, p.isNum c = true := groupText_num p _
      have ht : (',' :: (numText p x ++ w)).takeWhile p.isNum = ',' :: (groupText p x.natAbs ++ w.takeWhile p.isNum) := by
        simp only [numText_eq, hx, if_false, List.nil_append, List.takeWhile_cons, hcomma, if_true]
        rw [List.takeWhile_append_of_pos hall]
      have hd : (',' :: (numText p x ++ w)).dropWhile p.isNum = w.dropWhile p.isNum := by
        simp only [numText_eq, hx, if_false, List.nil_append, List.dropWhile_cons, hcomma, if_true]
        rw [List.dropWhile_append_of_pos hall]
      rw [ht, hd]
      obtain ⟨y, hy, hy0⟩ := hex
      have : y ∈ xs := by
        rcases List.mem_cons.1 hy with rfl | h
        · exact absurd hy0 hx
        · exact h
      obtain ⟨pre, r, h1, h2⟩ := ih ⟨y, this, hy0⟩
      exact ⟨',' :: (groupText p x.natAbs ++ pre), r, by rw [h1]; simp, h2⟩

/-- The texts of numbers that are not negative. -/
theorem flat_nonneg (p : Punct) : ∀ xs : List Int, (∀ x ∈ xs, 0 ≤ x) →
    xs.flatMap (fun x => ',' :: numText p x) = (xs.map Int.natAbs).flatMap (fun m => ',' :: groupText p m) := by
  intro xs
  induction xs with
  | nil => intro _; rfl
  | cons x xs ih =>
    intro h
    have hx : ¬ x < 0 := by have := h x (by simp); omega
    rw [List.flatMap_cons, List.map_cons, List.flatMap_cons, ih fun y hy => h y (by simp [hy]), numText_eq, if_neg hx]
    rfl

/-- C113: with groups of `g` digits and commas between them, it is known which lists `x, y, …` of two or more integers are silently misread: exactly
those whose members after the first are not negative and have a multiple of `g` digits, if the number with all the digits is in range. It is
this number that is read. All other lists are reported by an exception. -/
theorem C113_misread (g : Nat) (hg : 0 < g) (lo hi x : Int) (ys : List Int) (hys : ys ≠ []) (fuel : Nat) (hf : 2 ≤ fuel) (rest : List Char)
    (v : Int) (hv : v = (if x < 0 then - (joined x.natAbs (ys.map Int.natAbs) : Int) else joined x.natAbs (ys.map Int.natAbs))) :
    if (∀ y ∈ ys, 0 ≤ y ∧ g ∣ (digits y.natAbs).length) ∧ lo ≤ v ∧ v ≤ hi then
      ∃ s, readNest fuel (readLeafNum ⟨',', [g]⟩ lo hi) 1 (IStream.ofList ((printNest (putNum ⟨',', [g]⟩) 1 .fresh (x :: ys)).out ++ rest)) =
        some (.ok ([v], s)) ∧ s.rest = rest ∧ s.good = true
    else readNest fuel (readLeafNum ⟨',', [g]⟩ lo hi) 1 (IStream.ofList ((printNest (putNum ⟨',', [g]⟩) 1 .fresh (x :: ys)).out ++ rest)) =
      some (.exn .iosFailure) := by
  generalize hpp : (⟨',', [g]⟩ : Punct) = p
  have hgr : p.grouping = [g] := by rw [← hpp]
  have hgn : p.grouping ≠ [] := by rw [hgr]; simp
  have hc : p.sep = ',' := by rw [← hpp]
  have hcs : p.isSep ',' = true := by simp [Punct.isSep, hgn, hc]
  have hout := (writes_nest (writes_num p) 1 .fresh (x :: ys) rfl rfl).1
  have htxt : (printNest (putNum p) 1 .fresh (x :: ys)).out ++ rest = '[' :: (sepText [','] ((x :: ys).map (numText p)) ++ (']' :: rest)) := by
    rw [hout]; simp [nestText, OStream.fresh]
  rw [htxt]
  obtain ⟨fuel, rfl⟩ : ∃ k, fuel = k + 2 := ⟨fuel - 2, by omega⟩
  generalize hst : IStream.ofList ('[' :: (sepText [','] ((x :: ys).map (numText p)) ++ (']' :: rest))) = st
  have hp : st.Plain := by rw [← hst]; exact plain_ofList _
  have hr : st.rest = '[' :: (sepText [','] ((x :: ys).map (numText p)) ++ (']' :: rest)) := by rw [← hst]; rfl
  have h1 := sequenceX_start (rd := readLeafNum p lo hi) hp (begins_sep (ts := ys.map (numText p)) (begins_num p x)) (by simpa using hr) (fuel + 2)
  have hshow : readNest (fuel + 2) (readLeafNum p lo hi) 1 st = readSequenceX (fuel + 2) (readLeafNum p lo hi) st '[' ']' ',' := rfl
  rw [hshow, h1]
  have hp2 := adv_plain hp ['['] (sepText [','] ((x :: ys).map (numText p)) ++ (']' :: rest))
  generalize hs2 : st.adv ['['] (sepText [','] (numText p x :: ys.map (numText p)) ++ (']' :: rest)) = s2
  have hs2' : st.adv ['['] (sepText [','] ((x :: ys).map (numText p)) ++ (']' :: rest)) = s2 := by rw [← hs2]; rfl
  rw [hs2'] at hp2
  have hr2 : s2.rest = numText p x ++ (ys.flatMap (fun y => ',' :: numText p y) ++ ']' :: rest) := by
    rw [← hs2', ← List.append_assoc, ← sepText_flat]; rfl
  by_cases hneg : ∃ y ∈ ys, y < 0
  · obtain ⟨pre, r, h2, h3⟩ := comma_run_neg hgn hc rest ys hneg
    have hbad : ((groupText p x.natAbs ++ (pre ++ [','])).any p.isSep &&
        !consistent p.grouping (sizesRev p (groupText p x.natAbs ++ (pre ++ [','])).reverse 0)) = true := by
      rw [← List.append_assoc, trailing_bad hgn hc]
      simp [hcs]
    have hdne : (groupText p x.natAbs ++ (pre ++ [','])).filter (fun c => !p.isSep c) ≠ [] := by
      rw [List.filter_append, groupText_digits p (digits_of_sep (.inr (by rw [hc]; decide)))]
      simp [digits_ne_nil]
    have hrn := readNum_run lo hi x hp2 _ hr2 0 _ _ (by rw [h2]) h3 (by simp) _ rfl hdne _ rfl _ hbad
    rw [if_neg (fun h => by simp at h)] at hrn
    rw [if_neg (fun h => by
      obtain ⟨y, hy, hy0⟩ := hneg
      have := (h.1 y hy).1
      omega)]
    rw [readLoopX]
    simp [readLeafNum, hp2.eof, hrn]
  · have hnn : ∀ y ∈ ys, 0 ≤ y := fun y hy => by
      by_cases h : y < 0
      · exact absurd ⟨y, hy, h⟩ hneg
      · omega
    rw [flat_nonneg p ys hnn] at hr2
    generalize hms : ys.map Int.natAbs = ms at hv hr2
    have htaken := listRun_taken hgn hc rest x.natAbs ms
    have hall : ∀ c ∈ groupText p x.natAbs, p.isNum c = true := groupText_num p _
    rw [listRun, List.append_assoc, List.takeWhile_append_of_pos hall, List.dropWhile_append_of_pos hall] at htaken
    have hfil := listRun_filter hgn hc x.natAbs ms
    have hany : (listRun p x.natAbs ms).any p.isSep = true := by
      rw [List.any_eq_true]
      refine ⟨',', ?_, hcs⟩
      cases ms with
      | nil => exact absurd (List.map_eq_nil_iff.1 hms) hys
      | cons m ms => simp [listRun]
    have hval : (if x < 0 then - (digitsValue 0 (digits x.natAbs ++ ms.flatMap digits) : Int) else (digitsValue 0 (digits x.natAbs ++ ms.flatMap digits) : Int)) = v := by
      rw [digitsValue_numeral, joined_digits, (digits_spec _).1, hv]
    have hcons := listRun_consistent hg x.natAbs ms
    rw [hpp] at hcons
    have hcond : (∀ m ∈ ms, g ∣ (digits m).length) ↔ (∀ y ∈ ys, 0 ≤ y ∧ g ∣ (digits y.natAbs).length) := by
      rw [← hms]
      constructor
      · intro h y hy; exact ⟨hnn y hy, h _ (List.mem_map_of_mem hy)⟩
      · intro h m hm
        obtain ⟨y, hy, rfl⟩ := List.mem_map.1 hm
        exact (h y hy).2
    have hrn := readNum_run lo hi x hp2 _ hr2 0 (listRun p x.natAbs ms) _ htaken.1 htaken.2 (by simp) _ hfil (by simp [digits_ne_nil]) v hval _ rfl
    rw [hany, Bool.true_and, hgr] at hrn
    by_cases hyes : (∀ y ∈ ys, 0 ≤ y ∧ g ∣ (digits y.natAbs).length) ∧ lo ≤ v ∧ v ≤ hi
    · rw [if_pos hyes]
      rw [if_pos ⟨hyes.2.1, hyes.2.2, by rw [hcons.2 (hcond.2 hyes.1)]; rfl⟩] at hrn
      obtain ⟨t, h⟩ := hrn
      have hpl := adv_plain hp2 t (']' :: rest)
      have hrc := readChar_split hpl (b := []) (x := ']') (r := rest) blank_nil (by decide) rfl (some ',')
      have hnf : (s2.adv t (']' :: rest)).failed = false := by simp [IStream.failed, hpl.fail, hpl.bad]
      refine ⟨(s2.adv t (']' :: rest)).adv ([] ++ [']']) rest, ?_, rfl, (adv_plain hpl _ _).good⟩
      rw [readLoopX]
      simp [readLeafNum, hp2.eof, h, hnf, hrc, readLoopX]
    · rw [if_neg hyes]
      rw [if_neg (fun h => hyes ⟨hcond.1 (hcons.1 (by simpa using h.2.2)), h.1, h.2.1⟩)] at hrn
      rw [readLoopX]
      simp [readLeafNum, hp2.eof, hrn]

theorem consistent_zero : ∀ (l : List Nat) (gs : List Nat), consistent gs (l ++ [0]) = false := by
  intro l
  induction l with
  | nil => intro gs; simp [consistent]
  | cons n l ih =>
    intro gs
    rw [List.cons_append, consistent_cons (by simp), ih]
    simp

/-- A number that begins with a separator is rejected. -/
theorem C113_leading (p : Punct) (hg : p.grouping ≠ []) (hsp : isSpace p.sep = false) (hm : p.sep ≠ '-') (hpl : p.sep ≠ '+') (lo hi : Int) (s : IStream)
    (hs : s.Plain) (w : List Char) (hr : s.rest = p.sep :: w) (x0 : Int) : (readNum p lo hi s x0).2.failed = true := by
  have hsep : p.isSep p.sep = true := by simp [Punct.isSep, hg]
  have hsen := sentry_split hs (b := []) (x := p.sep) (r := w) blank_nil hsp (by rw [hr]; rfl)
  have hsign : signLength (p.sep :: w) = 0 := by
    unfold signLength
    split
    · rename_i e; injection e with e _; exact absurd e hpl
    · rename_i e; injection e with e _; exact absurd e hm
    · rfl
  have hrest : (s.adv [] (p.sep :: w)).rest = p.sep :: w := rfl
  simp only [readNum, hsen]
  simp only [if_true, extractNum, hrest, hsign, List.drop_zero, List.take_zero]
  have hrun : (p.sep :: w).takeWhile p.isNum = p.sep :: w.takeWhile p.isNum := by
    simp [Punct.isNum, hsep]
  rw [hrun]
  generalize w.takeWhile p.isNum = run
  have hbad : ((p.sep :: run).any p.isSep && !consistent p.grouping (sizesRev p (p.sep :: run).reverse 0)) = true := by
    rw [List.reverse_cons, sizesRev_sep p [] _ _ _ hsep]
    simp [sizesRev, consistent_zero, hsep]
  rw [hbad]
  generalize (if ([] : List Char) = ['-'] then _ else _ : Int) = v
  split
  · simp [IStream.failed]
  · split
    · simp [IStream.failed]
    · split
      · simp [IStream.failed]
      · simp [IStream.failed]

example : (readNest 9 (readLeafNum ⟨',', [3]⟩ (-2147483648) 2147483647) 1 (IStream.ofList "[,123]".toList)).map (fun r => (fun r => r.1) <$> r) =
    some (.exn .iosFailure) := by decide +kernel

/-- Lists of integers that are misread and such that are not, in a locale with groups of three. -/
example : joined 1 [234, 567] = 1234567 := by decide +kernel
example : (∀ y ∈ [(234 : Int), 567], 0 ≤ y ∧ 3 ∣ (digits y.natAbs).length) := by decide +kernel
example : ¬ (∀ y ∈ [(23 : Int)], 0 ≤ y ∧ 3 ∣ (digits y.natAbs).length) := by decide +kernel
example : (readNest 9 (readLeafNum ⟨',', [3]⟩ (-2147483648) 2147483647) 1 (IStream.ofList "[-1,234,567]".toList)).map (fun r => (fun r => r.1) <$> r) =
    some (.ok [-1234567]) := by decide +kernel

end Helper.Seq
