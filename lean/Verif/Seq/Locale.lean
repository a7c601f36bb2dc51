import Verif.Seq.Nested
set_option linter.unusedSectionVars false
/-!
# Property C113: lists of integers in other locales

Streams that have been given a locale with digit grouping, by `imbue` or through `std::locale::global`, write and read integers with
separators between groups of digits. `write_sequence`, `operator<<` and `read_sequence` (stlio.hpp:56-71, 144-190, container.hpp:127-135) are used as
modelled before; what changes are the readers and writers of the items, which follow `std::num_put` and `std::num_get`
([facet.num.put.virtuals], [facet.num.get.virtuals]).
-/
namespace Helper.Seq
open IStream OStream

/-- `std::numpunct`: the separator, and the sizes of the groups from the right; the last one is repeated, and 0 stands for no further
grouping. No grouping at all if the list is empty. -/
structure Punct where
  sep : Char
  grouping : List Nat

/-- The sizes that remain after the first. -/
def nextSizes : List Nat → List Nat
  | [] => []
  | [g] => [g]
  | _ :: gs => gs

/-- Digits, least significant first, with separators between the groups. -/
def groupRev (sep : Char) (gs : List Nat) (ds : List Char) : List Char :=
  match gs with
  | [] => ds
  | g :: gs' =>
    if g = 0 ∨ ds.length ≤ g then ds
    else ds.take g ++ sep :: groupRev sep (nextSizes (g :: gs')) (ds.drop g)
termination_by ds.length
decreasing_by simp only [List.length_drop]; omega

/-- Text of an integer as `std::num_put` writes it. -/
def numText (p : Punct) (i : Int) : List Char :=
  (if i < 0 then ['-'] else []) ++ (groupRev p.sep p.grouping (digits i.natAbs).reverse).reverse

/-- `os << i`. -/
def putNum (p : Punct) (os : OStream) (i : Int) : OStream := os.put (numText p i)

/-- The character is a separator that `std::num_get` discards. -/
def Punct.isSep (p : Punct) (c : Char) : Bool := !p.grouping.isEmpty && c == p.sep

/-- A character that `std::num_get` takes after the sign. -/
def Punct.isNum (p : Punct) (c : Char) : Bool := p.isSep c || isDigit c

/-- Sizes of the groups of a number given from the right; `n` digits of the current group have been seen. -/
def sizesRev (p : Punct) : List Char → Nat → List Nat
  | [], n => [n]
  | c :: t, n => if p.isSep c then n :: sizesRev p t 0 else sizesRev p t (n + 1)

/-- The check of the grouping: all groups but the last (the leftmost) must have the size prescribed, the last one may be shorter. -/
def consistent : List Nat → List Nat → Bool
  | _, [] => true
  | gs, [n] => decide (0 < n) && (match gs with
    | [] => true
    | g :: _ => g == 0 || decide (n ≤ g))
  | gs, n :: m :: r =>
    (match gs with
    | [] => false
    | g :: _ => g != 0 && n == g) && consistent (nextSizes gs) (m :: r)

/-- `std::num_get` for a signed integral type with values `lo … hi`: an optional sign and the longest run of digits and separators are
extracted. Without digits, with a value out of range, or if there are separators in wrong places, failbit is set. (An
implementation may stop earlier at a misplaced separator; failbit is set in any case.) -/
def extractNum (p : Punct) (lo hi : Int) (s : IStream) : Int × IStream :=
  let n := signLength s.rest
  let sign := s.rest.take n
  let run := (s.rest.drop n).takeWhile p.isNum
  let rest' := (s.rest.drop n).dropWhile p.isNum
  let ds := run.filter (fun c => !p.isSep c)
  let v : Int := if sign = ['-'] then - (digitsValue 0 ds : Int) else (digitsValue 0 ds : Int)
  let bad := run.any p.isSep && !consistent p.grouping (sizesRev p run.reverse 0)
  let s' := { s with before := (sign ++ run).reverse ++ s.before, rest := rest', eof := s.eof || rest'.isEmpty, fail := s.fail || bad }
  if ds.isEmpty then (0, { s' with fail := true })
  else if v < lo then (lo, { s' with fail := true })
  else if hi < v then (hi, { s' with fail := true })
  else (v, s')

/-- `is >> x`. -/
def readNum (p : Punct) (lo hi : Int) (s : IStream) (x : Int) : Int × IStream :=
  let r := s.sentry false
  if r.1 then extractNum p lo hi r.2 else (x, r.2)

def readLeafNum (p : Punct) (lo hi : Int) (s : IStream) : Option (Res (Int × IStream)) := some (.ok (readNum p lo hi s 0))

/-! ## One number -/

/-- Separators that are no digits, signs or delimiters of lists; or no grouping. -/
def Punct.Harmless (p : Punct) : Prop :=
  p.grouping = [] ∨ (isDigit p.sep = false ∧ p.sep ≠ '+' ∧ p.sep ≠ '-' ∧ p.sep ≠ ',' ∧ p.sep ≠ ']')

/-- Digits are not taken for separators. -/
def Punct.Digits (p : Punct) : Prop := ∀ c, isDigit c = true → p.isSep c = false

theorem groupRev_nil (sep : Char) (ds : List Char) : groupRev sep [] ds = ds := by
  rw [groupRev]

theorem groupRev_cons (sep : Char) (g : Nat) (gs ds) : groupRev sep (g :: gs) ds =
    if g = 0 ∨ ds.length ≤ g then ds else ds.take g ++ sep :: groupRev sep (nextSizes (g :: gs)) (ds.drop g) := by
  rw [groupRev]

theorem groupRev_empty (sep : Char) (gs) : groupRev sep gs [] = [] := by
  cases gs with
  | nil => exact groupRev_nil _ _
  | cons g gs => rw [groupRev_cons]; simp

theorem groupRev_filter (p : Punct) : ∀ (n : Nat) (gs : List Nat) (ds : List Char), ds.length ≤ n → (gs = [] ∨ p.grouping ≠ []) →
    (∀ c ∈ ds, p.isSep c = false) → (groupRev p.sep gs ds).filter (fun c => !p.isSep c) = ds := by
  intro n
  induction n with
  | zero =>
    intro gs ds hl hg hs
    have : ds = [] := List.length_eq_zero_iff.1 (by omega)
    subst this
    simp [groupRev_empty]
  | succ n ih =>
    intro gs ds hl hg hs
    have hself : ds.filter (fun c => !p.isSep c) = ds := by
      rw [List.filter_eq_self]
      intro c hc; simp [hs c hc]
    cases gs with
    | nil => rw [groupRev_nil]; exact hself
    | cons g gs' =>
      rw [groupRev_cons]
      by_cases h : g = 0 ∨ ds.length ≤ g
      · rw [if_pos h]; exact hself
      · rw [if_neg h]
        have hgr : p.grouping ≠ [] := hg.resolve_left (by simp)
        have hsep : p.isSep p.sep = true := by
          simp [Punct.isSep, hgr]
        have hd := ih (nextSizes (g :: gs')) (ds.drop g) (by simp; omega) (.inr hgr) fun c hc => hs c (List.mem_of_mem_drop hc)
        have ht : (ds.take g).filter (fun c => !p.isSep c) = ds.take g := by
          rw [List.filter_eq_self]
          intro c hc; simp [hs c (List.mem_of_mem_take hc)]
        rw [List.filter_append, ht, List.filter_cons]
        simp only [hsep, Bool.not_true, Bool.false_eq_true, if_false, hd, List.take_append_drop]

theorem groupRev_num (p : Punct) : ∀ (n : Nat) (gs : List Nat) (ds : List Char), ds.length ≤ n → (gs = [] ∨ p.grouping ≠ []) →
    (∀ c ∈ ds, isDigit c = true) → ∀ c ∈ groupRev p.sep gs ds, p.isNum c = true := by
  intro n
  induction n with
  | zero =>
    intro gs ds hl hg hs c hc
    have : ds = [] := List.length_eq_zero_iff.1 (by omega)
    subst this
    simp [groupRev_empty] at hc
  | succ n ih =>
    intro gs ds hl hg hs c hc
    have hself : ∀ c ∈ ds, p.isNum c = true := fun c hc => by simp [Punct.isNum, hs c hc]
    cases gs with
    | nil => rw [groupRev_nil] at hc; exact hself c hc
    | cons g gs' =>
      rw [groupRev_cons] at hc
      by_cases h : g = 0 ∨ ds.length ≤ g
      · rw [if_pos h] at hc; exact hself c hc
      · rw [if_neg h] at hc
        have hgr : p.grouping ≠ [] := hg.resolve_left (by simp)
        rcases List.mem_append.1 hc with hc | hc
        · exact hself c (List.mem_of_mem_take hc)
        · rcases List.mem_cons.1 hc with hc | hc
          · rw [hc]; simp [Punct.isNum, Punct.isSep, hgr]
          · exact ih _ _ (by simp; omega) (.inr hgr) (fun c hc => hs c (List.mem_of_mem_drop hc)) c hc

theorem sizesRev_plain (p : Punct) (t : List Char) : ∀ (ds : List Char) (n : Nat), (∀ c ∈ ds, p.isSep c = false) →
    sizesRev p (ds ++ t) n = sizesRev p t (n + ds.length) := by
  intro ds
  induction ds with
  | nil => intro n _; simp
  | cons c ds ih =>
    intro n h
    have hc : p.isSep c = false := h c (by simp)
    simp only [List.cons_append, sizesRev, hc, Bool.false_eq_true, if_false, List.length_cons]
    rw [ih (n + 1) fun c hc => h c (by simp [hc])]
    congr 1; omega

theorem sizesRev_ne (p : Punct) : ∀ (l : List Char) (n : Nat), sizesRev p l n ≠ [] := by
  intro l
  induction l with
  | nil => intro n; simp [sizesRev]
  | cons c t ih =>
    intro n
    simp only [sizesRev]
    split
    · simp
    · exact ih _

theorem consistent_cons {gs : List Nat} {n : Nat} {l : List Nat} (hl : l ≠ []) :
    consistent gs (n :: l) = ((match gs with
      | [] => false
      | g :: _ => g != 0 && n == g) && consistent (nextSizes gs) l) := by
  cases l with
  | nil => exact absurd rfl hl
  | cons m r => rfl

theorem nextSizes_ne {gs : List Nat} (h : gs ≠ []) : nextSizes gs ≠ [] := by
  match gs, h with
  | [g], _ => simp [nextSizes]
  | g :: g' :: gs, _ => simp [nextSizes]

theorem groupRev_consistent (p : Punct) : ∀ (n : Nat) (gs : List Nat) (ds : List Char), ds.length ≤ n → gs ≠ [] → p.grouping ≠ [] → ds ≠ [] →
    (∀ c ∈ ds, p.isSep c = false) → consistent gs (sizesRev p (groupRev p.sep gs ds) 0) = true := by
  intro n
  induction n with
  | zero =>
    intro gs ds hl _ _ hne
    exact absurd (List.length_eq_zero_iff.1 (by omega)) hne
  | succ n ih =>
    intro gs ds hl hgs hg hne hs
    obtain ⟨g, gs', rfl⟩ : ∃ g gs', gs = g :: gs' := by
      cases gs with
      | nil => exact absurd rfl hgs
      | cons g gs' => exact ⟨g, gs', rfl⟩
    rw [groupRev]
    have hpos : 0 < ds.length := List.length_pos_iff.2 hne
    by_cases h : g = 0 ∨ ds.length ≤ g
    · simp only [if_pos h]
      have := sizesRev_plain p [] ds 0 hs
      rw [List.append_nil] at this
      rw [this]
      simp only [sizesRev, consistent, Nat.zero_add, hpos, decide_true, Bool.true_and]
      rcases h with h | h
      · simp [h]
      · simp [h]
    · simp only [if_neg h]
      rw [sizesRev_plain p _ _ _ fun c hc => hs c (List.mem_of_mem_take hc)]
      have hsep : p.isSep p.sep = true := by simp [Punct.isSep, hg]
      simp only [sizesRev, hsep, if_true, Nat.zero_add, List.length_take]
      have hd := ih (nextSizes (g :: gs')) (ds.drop g) (by simp; omega) (nextSizes_ne hgs) hg
        (by intro e; have := congrArg List.length e; simp at this; omega) fun c hc => hs c (List.mem_of_mem_drop hc)
      rw [consistent_cons (sizesRev_ne p _ _)]
      have hm : min g ds.length = g := by omega
      have hg0 : ¬ g = 0 := fun k => h (.inl k)
      simp [hm, hg0, hd]

/-- A number without separators: there is nothing to check. -/
theorem groupRev_bad (p : Punct) (ds : List Char) (hne : ds ≠ []) (hs : ∀ c ∈ ds, p.isSep c = false) :
    ((groupRev p.sep p.grouping ds).reverse.any p.isSep &&
      !consistent p.grouping (sizesRev p (groupRev p.sep p.grouping ds).reverse.reverse 0)) = false := by
  cases hg : p.grouping with
  | nil =>
    have : ∀ c, p.isSep c = false := fun c => by simp [Punct.isSep, hg]
    simp [this]
  | cons g gs =>
    have := groupRev_consistent p ds.length p.grouping ds (Nat.le_refl _) (by simp [hg]) (by simp [hg]) hne hs
    rw [hg] at this
    simp [this]

theorem takeWhile_run {p : Char → Bool} {a : List Char} {d : Char} {r : List Char} (ha : ∀ c ∈ a, p c = true) (hd : p d = false) :
    (a ++ d :: r).takeWhile p = a ∧ (a ++ d :: r).dropWhile p = d :: r := by
  induction a with
  | nil => simp [hd]
  | cons x a ih =>
    have := ih fun c hc => ha c (by simp [hc])
    simp [ha x (by simp), this]

theorem groupRev_last (sep : Char) : ∀ (n : Nat) (gs : List Nat) (ds : List Char), ds.length ≤ n → ds ≠ [] → (∀ c ∈ ds, isDigit c = true) →
    ∃ l c, groupRev sep gs ds = l ++ [c] ∧ isDigit c = true := by
  intro n
  induction n with
  | zero =>
    intro gs ds hl hne
    exact absurd (List.length_eq_zero_iff.1 (by omega)) hne
  | succ n ih =>
    intro gs ds hl hne hs
    have hself : ∃ l c, ds = l ++ [c] ∧ isDigit c = true :=
      ⟨ds.dropLast, ds.getLast hne, (List.dropLast_concat_getLast hne).symm, hs _ (List.getLast_mem hne)⟩
    cases gs with
    | nil => rw [groupRev_nil]; exact hself
    | cons g gs' =>
      rw [groupRev_cons]
      by_cases h : g = 0 ∨ ds.length ≤ g
      · rw [if_pos h]; exact hself
      · rw [if_neg h]
        obtain ⟨l, c, e, hc⟩ := ih (nextSizes (g :: gs')) (ds.drop g) (by simp; omega)
          (by intro e; have := congrArg List.length e; simp at this; omega) fun c hc => hs c (List.mem_of_mem_drop hc)
        exact ⟨ds.take g ++ sep :: l, c, by rw [e]; simp, hc⟩

/-- The digits of a number, grouped, without its sign. -/
def groupText (p : Punct) (n : Nat) : List Char := (groupRev p.sep p.grouping (digits n).reverse).reverse

theorem digits_isDigit (n : Nat) : ∀ c ∈ digits n, isDigit c = true := fun c hc => isDigit_iff.2 ((digits_spec n).2 c hc)

theorem groupText_head (p : Punct) (n : Nat) : ∃ c r, groupText p n = c :: r ∧ isDigit c = true := by
  obtain ⟨l, c, h, hc⟩ := groupRev_last p.sep _ p.grouping (digits n).reverse (Nat.le_refl _) (by simp [digits_ne_nil])
    (fun c hc => digits_isDigit n c (List.mem_reverse.1 hc))
  exact ⟨c, l.reverse, by simp [groupText, h], hc⟩

theorem groupText_num (p : Punct) (n : Nat) : ∀ c ∈ groupText p n, p.isNum c = true := by
  intro c hc
  have hg : p.grouping = [] ∨ p.grouping ≠ [] := Classical.em _
  exact groupRev_num p _ p.grouping (digits n).reverse (Nat.le_refl _) hg
    (fun c hc => digits_isDigit n c (List.mem_reverse.1 hc)) c (List.mem_reverse.1 hc)

theorem groupText_digits (p : Punct) (hd : p.Digits) (n : Nat) : (groupText p n).filter (fun c => !p.isSep c) = digits n := by
  have hg : p.grouping = [] ∨ p.grouping ≠ [] := Classical.em _
  have := groupRev_filter p _ p.grouping (digits n).reverse (Nat.le_refl _) hg
    (fun c hc => hd c (digits_isDigit n c (List.mem_reverse.1 hc)))
  simp [groupText, List.filter_reverse, this]

theorem groupText_good (p : Punct) (hd : p.Digits) (n : Nat) :
    ((groupText p n).any p.isSep && !consistent p.grouping (sizesRev p (groupText p n).reverse 0)) = false :=
  groupRev_bad p (digits n).reverse (by simp [digits_ne_nil]) (fun c hc => hd c (digits_isDigit n c (List.mem_reverse.1 hc)))

theorem numText_eq (p : Punct) (x : Int) : numText p x = (if x < 0 then ['-'] else []) ++ groupText p x.natAbs := rfl

/-- The separator is no digit. -/
theorem digits_of_sep {p : Punct} (h : p.grouping = [] ∨ isDigit p.sep = false) : p.Digits := by
  intro c hc
  rcases h with h | h
  · simp [Punct.isSep, h]
  · simp only [Punct.isSep, Bool.and_eq_false_imp]
    intro _
    apply Bool.eq_false_iff.2
    intro e
    rw [eq_of_beq e] at hc
    rw [hc] at h
    cases h

theorem numText_head (p : Punct) (x : Int) : ∃ c r, numText p x = c :: r ∧ (isDigit c = true ∨ c = '-') := by
  obtain ⟨c, r, h, hc⟩ := groupText_head p x.natAbs
  rw [numText_eq, h]
  split
  · exact ⟨'-', _, rfl, .inr rfl⟩
  · exact ⟨c, r, rfl, .inl hc⟩

theorem begins_num (p : Punct) (x : Int) : Begins (numText p x) := by
  obtain ⟨c, r, h, hc⟩ := numText_head p x
  refine ⟨c, r, h, ?_, ?_⟩
  · rcases hc with hc | hc
    · exact isDigit_not_space hc
    · rw [hc]; decide
  · rintro rfl
    rcases hc with hc | hc
    · exact absurd hc (by decide)
    · exact absurd hc (by decide)

/-- A number in front of a character that does not belong to it is read. -/
theorem readNum_text {p : Punct} (hd : p.Digits) {lo hi x : Int} (h1 : lo ≤ x) (h2 : x ≤ hi) {s : IStream} (hs : s.Plain) {d : Char} {r : List Char}
    (hdn : p.isNum d = false) (hr : s.rest = numText p x ++ d :: r) (x0 : Int) :
    readNum p lo hi s x0 = (x, s.adv (numText p x) (d :: r)) := by
  obtain ⟨c, t, ht, hsp, _⟩ := begins_num p x
  have hsen := sentry_split hs (b := []) (x := c) (r := t ++ d :: r) blank_nil hsp (by rw [hr, ht]; rfl)
  obtain ⟨c', t', ht', hc'⟩ := groupText_head p x.natAbs
  have hsign : signLength (numText p x ++ d :: r) = (if x < 0 then 1 else 0) := by
    rw [numText_eq]
    by_cases hx : x < 0
    · simp [hx, signLength]
    · simp only [hx, if_false, List.nil_append, ht', List.cons_append]
      unfold signLength
      split
      · rename_i e; injection e with e _; rw [e] at hc'; exact absurd hc' (by decide)
      · rename_i e; injection e with e _; rw [e] at hc'; exact absurd hc' (by decide)
      · rfl
  have hrun := takeWhile_run (p := p.isNum) (a := groupText p x.natAbs) (d := d) (r := r) (groupText_num p _) hdn
  have hdrop : (numText p x ++ d :: r).drop (if x < 0 then 1 else 0) = groupText p x.natAbs ++ d :: r := by
    rw [numText_eq]; split <;> simp
  have htake : (numText p x ++ d :: r).take (if x < 0 then 1 else 0) = if x < 0 then ['-'] else [] := by
    rw [numText_eq]; split <;> simp
  have hval : (digitsValue 0 (digits x.natAbs) : Int) = x.natAbs := by
    rw [digitsValue_numeral, (digits_spec x.natAbs).1]
  have hv : (if (if x < 0 then ['-'] else ([] : List Char)) = ['-'] then - (digitsValue 0 (digits x.natAbs) : Int)
      else (digitsValue 0 (digits x.natAbs) : Int)) = x := by
    rw [hval]
    by_cases hx : x < 0
    · rw [if_pos (by rw [if_pos hx])]; omega
    · rw [if_neg (by rw [if_neg hx]; simp)]; omega
  have hne : (digits x.natAbs).isEmpty = false := by
    cases h : digits x.natAbs with
    | nil => exact absurd h (digits_ne_nil _)
    | cons _ _ => rfl
  have hrest : (s.adv [] (c :: (t ++ d :: r))).rest = numText p x ++ d :: r := by rw [ht]; rfl
  simp only [readNum, hsen]
  simp only [if_true, extractNum, hrest, hsign, hdrop, htake, hrun.1, hrun.2, groupText_digits p hd, groupText_good p hd, hv, hne]
  rw [if_neg (by simp), if_neg (by omega), if_neg (by omega)]
  have e : (if x < 0 then ['-'] else []) ++ groupText p x.natAbs = numText p x := rfl
  simp [adv, e, hs.eof]

theorem readsAs_num {p : Punct} (hp : p.Harmless) {lo hi x : Int} (h1 : lo ≤ x) (h2 : x ≤ hi) :
    ReadsAs (readLeafNum p lo hi) (numText p x) x := by
  intro s d r hs hdl hr
  have hd : p.Digits := digits_of_sep (hp.imp id fun h => h.1)
  have hdn : p.isNum d = false := by
    have h1 : isDigit d = false := by rcases hdl with rfl | rfl <;> decide
    have h2 : p.isSep d = false := by
      rcases hp with hp | hp
      · simp [Punct.isSep, hp]
      · simp only [Punct.isSep, Bool.and_eq_false_imp]
        intro _
        apply Bool.eq_false_iff.2
        intro e
        have e := eq_of_beq e
        rcases hdl with rfl | rfl
        · exact hp.2.2.2.1 e.symm
        · exact hp.2.2.2.2 e.symm
    simp [Punct.isNum, h1, h2]
  show some (Res.ok (readNum p lo hi s 0)) = _
  rw [readNum_text hd h1 h2 hs hdn hr]

theorem writes_num (p : Punct) : WritesText (putNum p) (numText p) := fun _ _ hf hw => put_text hf hw _

/-- C113: in a locale without grouping, or whose separator is no digit, sign, comma or closing bracket, vectors of integers nested to any depth are
read back as written, and exactly what was written is consumed. -/
theorem C113_ints_partial (p : Punct) (hp : p.Harmless) (lo hi : Int) (d : Nat) (x : Nest Int (d + 1)) (hx : ∀ i ∈ leaves (d + 1) x, lo ≤ i ∧ i ≤ hi) :
    ∃ n, ∀ fuel, n ≤ fuel → ∀ rest, ∃ s, readNest fuel (readLeafNum p lo hi) (d + 1)
        (IStream.ofList ((printNest (putNum p) (d + 1) .fresh x).out ++ rest)) = some (.ok (x, s)) ∧
      s.rest = rest ∧ s.good = true := by
  have hout := (writes_nest (writes_num p) (d + 1) .fresh x rfl rfl).1
  obtain ⟨n, hn⟩ := nest_reads (rd := fun _ => readLeafNum p lo hi) (begins_num p) d x
    (fun y hy => ⟨0, fun _ _ => readsAs_num hp (hx y hy).1 (hx y hy).2⟩)
  refine ⟨n, fun fuel hf rest => ⟨_, hn fuel hf _ rest (plain_ofList _) (by rw [hout]; rfl), rfl, rfl⟩⟩

/-! ## Commas between groups -/

/-- What the reader of numbers meets after the first number of a list: it goes on to the closing bracket, or to a minus sign after a comma. -/
theorem comma_run {p : Punct} (hg : p.grouping ≠ []) (hc : p.sep = ',') (rest : List Char) : ∀ xs : List Int,
    (xs.flatMap (fun x => ',' :: numText p x) ++ ']' :: rest).dropWhile p.isNum = ']' :: rest ∨
    ∃ pre r, (xs.flatMap (fun x => ',' :: numText p x) ++ ']' :: rest).takeWhile p.isNum = pre ++ [','] ∧
      (xs.flatMap (fun x => ',' :: numText p x) ++ ']' :: rest).dropWhile p.isNum = '-' :: r := by
  have hcomma : p.isNum ',' = true := by simp [Punct.isNum, Punct.isSep, hg, hc]
  have hbr : p.isNum ']' = false := by
    simp [Punct.isNum, Punct.isSep, hc, isDigit]
  have hminus : p.isNum '-' = false := by
    simp [Punct.isNum, Punct.isSep, hc, isDigit]
  intro xs
  induction xs with
  | nil => left; simp [hbr]
  | cons x xs ih =>
    rw [List.flatMap_cons, List.cons_append, List.cons_append, List.append_assoc]
    generalize hw : (xs.flatMap (fun x => ',' :: numText p x) ++ ']' :: rest) = w at ih
    by_cases hx : x < 0
    · right
      refine ⟨[], groupText p x.natAbs ++ w, ?_, ?_⟩
      · simp [numText_eq, hx, hcomma, hminus]
      · simp [numText_eq, hx, hcomma, hminus]
    · have hall : ∀ c ∈ groupText p x.natAbs, p.isNum c = true := groupText_num p _
      have ht : (',' :: (numText p x ++ w)).takeWhile p.isNum = ',' :: (groupText p x.natAbs ++ w.takeWhile p.isNum) := by
        simp only [numText_eq, hx, if_false, List.nil_append, List.takeWhile_cons, hcomma, if_true]
        rw [List.takeWhile_append_of_pos hall]
      have hd : (',' :: (numText p x ++ w)).dropWhile p.isNum = w.dropWhile p.isNum := by
        simp only [numText_eq, hx, if_false, List.nil_append, List.dropWhile_cons, hcomma, if_true]
        rw [List.dropWhile_append_of_pos hall]
      rw [ht, hd]
      rcases ih with ih | ⟨pre, r, h1, h2⟩
      · exact .inl ih
      · exact .inr ⟨',' :: (groupText p x.natAbs ++ pre), r, by rw [h1]; simp, h2⟩

/-- A number that ends with a separator is not consistent. -/
theorem trailing_bad {p : Punct} (hg : p.grouping ≠ []) (hc : p.sep = ',') (a : List Char) :
    consistent p.grouping (sizesRev p (a ++ [',']).reverse 0) = false := by
  have hs : p.isSep ',' = true := by simp [Punct.isSep, hg, hc]
  rw [List.reverse_append]
  simp only [List.reverse_singleton, List.singleton_append, sizesRev, hs, if_true]
  rw [consistent_cons (sizesRev_ne p _ _)]
  cases h : p.grouping with
  | nil => exact absurd h hg
  | cons g gs =>
    have : (g != 0 && 0 == g) = false := by
      cases g <;> simp
    simp [this]

theorem sepText_flat (t : Int → List Char) (x : Int) (xs : List Int) :
    sepText [','] ((x :: xs).map t) = t x ++ xs.flatMap (fun y => ',' :: t y) := by
  induction xs generalizing x with
  | nil => simp [sepText]
  | cons y ys ih =>
    have := ih y
    simp only [List.map_cons] at this ⊢
    rw [sepText]
    rw [this]; simp

/-- The first number of a list of two or more, if the separator is a comma: the reader fails, or goes to the closing bracket. -/
theorem comma_first {p : Punct} (hg : p.grouping ≠ []) (hc : p.sep = ',') (lo hi x : Int) (xs : List Int) {s : IStream} (hs : s.Plain)
    (rest : List Char) (hr : s.rest = sepText [','] ((x :: xs).map (numText p)) ++ ']' :: rest) (x0 : Int) :
    (readNum p lo hi s x0).2.failed = true ∨
      ∃ t, (readNum p lo hi s x0).2 = s.adv t (']' :: rest) := by
  rw [sepText_flat, List.append_assoc] at hr
  generalize hw : (xs.flatMap (fun x => ',' :: numText p x) ++ ']' :: rest) = w at hr
  have hrun := comma_run hg hc rest xs
  rw [hw] at hrun
  obtain ⟨c, t, ht, hsp, _⟩ := begins_num p x
  have hsen := sentry_split hs (b := []) (x := c) (r := t ++ w) blank_nil hsp (by rw [hr, ht]; rfl)
  obtain ⟨c', t', ht', hc'⟩ := groupText_head p x.natAbs
  have hsign : signLength (numText p x ++ w) = (if x < 0 then 1 else 0) := by
    rw [numText_eq]
    by_cases hx : x < 0
    · simp [hx, signLength]
    · simp only [hx, if_false, List.nil_append, ht', List.cons_append]
      unfold signLength
      split
      · rename_i e; injection e with e _; rw [e] at hc'; exact absurd hc' (by decide)
      · rename_i e; injection e with e _; rw [e] at hc'; exact absurd hc' (by decide)
      · rfl
  have hdrop : (numText p x ++ w).drop (if x < 0 then 1 else 0) = groupText p x.natAbs ++ w := by
    rw [numText_eq]; split <;> simp
  have hall : ∀ c ∈ groupText p x.natAbs, p.isNum c = true := groupText_num p _
  have htw : (groupText p x.natAbs ++ w).takeWhile p.isNum = groupText p x.natAbs ++ w.takeWhile p.isNum :=
    List.takeWhile_append_of_pos hall
  have hdw : (groupText p x.natAbs ++ w).dropWhile p.isNum = w.dropWhile p.isNum := List.dropWhile_append_of_pos hall
  have hrest : (s.adv [] (c :: (t ++ w))).rest = numText p x ++ w := by rw [ht]; rfl
  simp only [readNum, hsen]
  simp only [if_true, extractNum, hrest, hsign, hdrop, htw, hdw]
  have hsf : s.fail = false := hs.fail
  have hse : s.eof = false := hs.eof
  rcases hrun with hrun | ⟨pre, r, h1, h2⟩
  · rw [hrun]
    generalize (if List.take (if x < 0 then 1 else 0) (numText p x ++ w) = ['-'] then _ else _ : Int) = v
    generalize ((groupText p x.natAbs ++ List.takeWhile p.isNum w).any p.isSep && _) = bad
    split
    · left; simp [IStream.failed]
    · split
      · left; simp [IStream.failed]
      · split
        · left; simp [IStream.failed]
        · cases bad with
          | true => left; simp [IStream.failed]
          | false => right; exact ⟨List.take (if x < 0 then 1 else 0) (numText p x ++ w) ++ (groupText p x.natAbs ++ List.takeWhile p.isNum w), by simp [adv, hsf, hse]⟩
  · left
    have hbad : ((groupText p x.natAbs ++ (pre ++ [','])).any p.isSep &&
        !consistent p.grouping (sizesRev p (groupText p x.natAbs ++ (pre ++ [','])).reverse 0)) = true := by
      have hs : p.isSep ',' = true := by simp [Punct.isSep, hg, hc]
      rw [← List.append_assoc, trailing_bad hg hc]
      simp [hs]
    rw [h1, hbad]
    generalize (if List.take (if x < 0 then 1 else 0) (numText p x ++ w) = ['-'] then _ else _ : Int) = v
    split
    · simp [IStream.failed]
    · split
      · simp [IStream.failed]
      · split
        · simp [IStream.failed]
        · simp [IStream.failed]

/-- C113: with a comma between groups, a written list of two or more integers is never read back: the reader throws, or returns a
list with one number. -/
theorem C113_comma_refuted (p : Punct) (hg : p.grouping ≠ []) (hc : p.sep = ',') (lo hi : Int) (xs : List Int) (hl : 2 ≤ xs.length) (fuel : Nat)
    (hf : 2 ≤ fuel) (rest : List Char) :
    readNest fuel (readLeafNum p lo hi) 1 (IStream.ofList ((printNest (putNum p) 1 .fresh xs).out ++ rest)) = some (.exn .iosFailure) ∨
    ∃ v s, readNest fuel (readLeafNum p lo hi) 1 (IStream.ofList ((printNest (putNum p) 1 .fresh xs).out ++ rest)) = some (.ok ([v], s)) := by
  have hout := (writes_nest (writes_num p) 1 .fresh xs rfl rfl).1
  obtain ⟨x, ys, rfl⟩ : ∃ x ys, xs = x :: ys := by
    cases xs with
    | nil => simp at hl
    | cons x ys => exact ⟨x, ys, rfl⟩
  have htxt : (printNest (putNum p) 1 .fresh (x :: ys)).out ++ rest = '[' :: (sepText [','] ((x :: ys).map (numText p)) ++ (']' :: rest)) := by
    rw [hout]; simp [nestText, OStream.fresh]
  rw [htxt]
  obtain ⟨fuel, rfl⟩ : ∃ k, fuel = k + 2 := ⟨fuel - 2, by omega⟩
  generalize hst : IStream.ofList ('[' :: (sepText [','] ((x :: ys).map (numText p)) ++ (']' :: rest))) = st
  have hp : st.Plain := by rw [← hst]; exact plain_ofList _
  have hr : st.rest = '[' :: (sepText [','] ((x :: ys).map (numText p)) ++ (']' :: rest)) := by rw [← hst]; rfl
  have h1 := sequenceX_start (rd := readLeafNum p lo hi) hp (begins_sep (ts := ys.map (numText p)) (begins_num p x)) (by simpa using hr) (fuel + 2)
  show readSequenceX (fuel + 2) (readLeafNum p lo hi) st '[' ']' ',' = _ ∨ ∃ v s, readSequenceX (fuel + 2) (readLeafNum p lo hi) st '[' ']' ',' = _
  rw [h1]
  have hp2 := adv_plain hp ['['] (sepText [','] ((x :: ys).map (numText p)) ++ (']' :: rest))
  generalize hs2 : st.adv ['['] (sepText [','] (numText p x :: ys.map (numText p)) ++ (']' :: rest)) = s2
  have hs2' : st.adv ['['] (sepText [','] ((x :: ys).map (numText p)) ++ (']' :: rest)) = s2 := by rw [← hs2]; rfl
  rw [hs2'] at hp2
  have hr2 : s2.rest = sepText [','] ((x :: ys).map (numText p)) ++ ']' :: rest := by rw [← hs2']; rfl
  have hfirst := comma_first hg hc lo hi x ys hp2 rest hr2 0
  rw [readLoopX]
  simp only [readLeafNum, hp2.eof]
  rcases hfirst with h | ⟨t, h⟩
  · left; simp [h]
  · right
    have hpl := adv_plain hp2 t (']' :: rest)
    have hrc := readChar_split hpl (b := []) (x := ']') (r := rest) blank_nil (by decide) rfl (some ',')
    have hnf : (s2.adv t (']' :: rest)).failed = false := by simp [IStream.failed, hpl.fail, hpl.bad]
    refine ⟨(readNum p lo hi s2 0).1, (s2.adv t (']' :: rest)).adv ([] ++ [']']) rest, ?_⟩
    simp [h, hnf, hrc, readLoopX]

/-- C113: lists with at most one integer are read back even then. -/
theorem C113_comma_partial (p : Punct) (hc : p.sep = ',') (lo hi : Int) (xs : List Int) (hl : xs.length ≤ 1)
    (hx : ∀ i ∈ xs, lo ≤ i ∧ i ≤ hi) (fuel : Nat) (hf : 2 ≤ fuel) (rest : List Char) :
    ∃ s, readNest fuel (readLeafNum p lo hi) 1 (IStream.ofList ((printNest (putNum p) 1 .fresh xs).out ++ rest)) = some (.ok (xs, s)) ∧
      s.rest = rest ∧ s.good = true := by
  have hout := (writes_nest (writes_num p) 1 .fresh xs rfl rfl).1
  obtain ⟨fuel, rfl⟩ : ∃ k, fuel = k + 2 := ⟨fuel - 2, by omega⟩
  match xs, hl, hx with
  | [], _, _ =>
    have htxt : (printNest (putNum p) 1 .fresh ([] : List Int)).out ++ rest = '[' :: ']' :: rest := by
      rw [hout]; simp [nestText, sepText, OStream.fresh]
    rw [htxt]
    refine ⟨(IStream.ofList ('[' :: ']' :: rest)).adv ['[', ']'] rest, ?_, rfl, rfl⟩
    have hs := plain_ofList ('[' :: ']' :: rest)
    have h1 := readChar_split hs (b := []) (x := '[') blank_nil (by decide) (by rfl : (IStream.ofList ('[' :: ']' :: rest)).rest = [] ++ '[' :: (']' :: rest)) none
    have hp1 := adv_plain hs ['['] (']' :: rest)
    have h2 := readChar_split hp1 (b := []) (x := ']') (r := rest) blank_nil (by decide) rfl (some '[')
    simp only [List.nil_append, adv_adv] at h1 h2
    simp [readNest, readSequenceX, h1, h2, readLoopX]
  | [x], _, hx =>
    have htxt : (printNest (putNum p) 1 .fresh [x]).out ++ rest = '[' :: (numText p x ++ (']' :: rest)) := by
      rw [hout]; simp [nestText, sepText, OStream.fresh]
    rw [htxt]
    generalize hst : IStream.ofList ('[' :: (numText p x ++ (']' :: rest))) = st
    have hp : st.Plain := by rw [← hst]; exact plain_ofList _
    have hr : st.rest = '[' :: (numText p x ++ (']' :: rest)) := by rw [← hst]; rfl
    have h1 := sequenceX_start (rd := readLeafNum p lo hi) hp (begins_num p x) hr (fuel + 2)
    have hp2 := adv_plain hp ['['] (numText p x ++ (']' :: rest))
    have hd : p.Digits := digits_of_sep (.inr (by rw [hc]; decide))
    have hbr : p.isNum ']' = false := by simp [Punct.isNum, Punct.isSep, hc, isDigit]
    have hrd := readNum_text hd (hx x (by simp)).1 (hx x (by simp)).2 hp2 hbr rfl 0
    generalize st.adv ['['] (numText p x ++ (']' :: rest)) = s2 at *
    have hpl := adv_plain hp2 (numText p x) (']' :: rest)
    have hrc := readChar_split hpl (b := []) (x := ']') (r := rest) blank_nil (by decide) rfl (some ',')
    have hnf : (s2.adv (numText p x) (']' :: rest)).failed = false := by simp [IStream.failed, hpl.fail, hpl.bad]
    refine ⟨(s2.adv (numText p x) (']' :: rest)).adv ([] ++ [']']) rest, ?_, rfl, (adv_plain hpl _ _).good⟩
    show readSequenceX (fuel + 2) (readLeafNum p lo hi) st '[' ']' ',' = _
    rw [h1, readLoopX]
    simp [readLeafNum, hp2.eof, hrd, hnf, hrc, readLoopX]

/-- C113 is false: in a locale that writes 1234 as `1,234`, the list of 1 and 234 is read back as the list of 1234, without any error. -/
theorem C113_refuted :
    (printNest (putNum ⟨',', [3]⟩) 1 .fresh [1, 234]).out = "[1,234]".toList ∧
    (readNest 9 (readLeafNum ⟨',', [3]⟩ (-2147483648) 2147483647) 1 (IStream.ofList "[1,234]".toList)).map (fun r => (fun r => r.1) <$> r) =
      some (.ok [1234]) := by
  constructor <;> decide +kernel

example : numText ⟨'\'', [3]⟩ (-1234567) = "-1'234'567".toList := by decide +kernel
example : numText ⟨',', [3, 2]⟩ 123456789 = "12,34,56,789".toList := by decide +kernel
example : numText ⟨'.', [3, 0]⟩ 123456789 = "123456.789".toList := by decide +kernel
example : (readNest 9 (readLeafNum ⟨'.', [3]⟩ (-2147483648) 2147483647) 1 (IStream.ofList "[1.234,-5]".toList)).map (fun r => (fun r => r.1) <$> r) =
    some (.ok [1234, -5]) := by decide +kernel
example : (readNest 9 (readLeafNum ⟨',', [3]⟩ (-2147483648) 2147483647) 1 (IStream.ofList "[1,2]".toList)).map (fun r => (fun r => r.1) <$> r) =
    some (.exn .iosFailure) := by decide +kernel
example : Punct.Harmless ⟨'.', [3]⟩ := .inr (by decide)

end Helper.Seq
