import Verif.Seq.FormatModel
set_option linter.unusedSectionVars false
/-!
# Lemmas for property C133
-/
namespace Helper.Seq.Format
open IStream OStream

/-! ## What is read from a text without blanks and delimiters -/

/-- The number that a whole text stands for. -/
def parse (t : IntType) (b : Base) (txt : List Char) : Option Int :=
  let n := signLength txt
  let body := txt.drop n
  let ds := body.drop (scanBase b body).1
  if ds ≠ [] ∧ ∀ c ∈ ds, isMark (scanBase b body).2 c = true then
    represent t (decide (txt.take n = ['-'])) (valueIn (scanBase b body).2 0 ds)
  else none

/-- No blanks or delimiters. -/
def Clean (l : List Char) : Prop := ∀ c ∈ l, isSpace c = false ∧ c ≠ ',' ∧ c ≠ ']'

theorem not_mark {d : Char} (hd : d = ',' ∨ d = ']') (r : Nat) : isMark r d = false := by
  rcases hd with rfl | rfl <;> rfl

theorem signLength_app {l : List Char} (hl : l ≠ []) (r : List Char) : signLength (l ++ r) = signLength l ∧ signLength l ≤ l.length := by
  cases l with
  | nil => exact absurd rfl hl
  | cons c l =>
    by_cases h1 : c = '+'
    · subst h1; exact ⟨rfl, by simp [signLength]⟩
    · by_cases h2 : c = '-'
      · subst h2; exact ⟨rfl, by simp [signLength]⟩
      · simp [signLength, h1, h2]

theorem hexPrefix_app {d : Char} (hd : d = ',' ∨ d = ']') (l r : List Char) : hexPrefix (l ++ d :: r) = hexPrefix l := by
  have hx : (d == 'x' || d == 'X') = false := by rcases hd with rfl | rfl <;> rfl
  match l with
  | [] => rcases hd with rfl | rfl <;> rfl
  | [c] =>
    by_cases h : c = '0'
    · subst h; simp only [List.cons_append, List.nil_append, hexPrefix]; exact hx
    · simp [hexPrefix, h]
  | c :: c' :: l =>
    by_cases h : c = '0'
    · subst h; rfl
    · simp [hexPrefix, h]

theorem zeroPrefix_app {d : Char} (hd : d = ',' ∨ d = ']') (l r : List Char) : zeroPrefix (l ++ d :: r) = zeroPrefix l := by
  cases l with
  | nil => rcases hd with rfl | rfl <;> rfl
  | cons c l =>
    by_cases h : c = '0'
    · subst h; rfl
    · simp [zeroPrefix, h]

theorem hexPrefix_length {l : List Char} (h : hexPrefix l = true) : 2 ≤ l.length := by
  match l with
  | [] => cases h
  | [c] =>
    by_cases hc : c = '0'
    · subst hc; cases h
    · simp [hexPrefix] at h
  | c :: c' :: l => simp

theorem scanBase_app {d : Char} (hd : d = ',' ∨ d = ']') (b : Base) (l r : List Char) :
    scanBase b (l ++ d :: r) = scanBase b l ∧ (scanBase b l).1 ≤ l.length := by
  have h1 := hexPrefix_app hd l r
  have h2 := zeroPrefix_app hd l r
  refine ⟨by cases b <;> simp [scanBase, h1, h2], ?_⟩
  have := @hexPrefix_length l
  cases b with
  | oct => simp [scanBase]
  | dec => simp [scanBase]
  | hex =>
    simp only [scanBase]
    split
    · exact this (by assumption)
    · omega
  | unset =>
    simp only [scanBase]
    split
    · exact this (by assumption)
    · split <;> simp

/-- The longest run of digits: all, or up to another character of the text. -/
theorem run_cases (p : Char → Bool) {d : Char} (hd : p d = false) (r : List Char) : ∀ l : List Char,
    ((∀ c ∈ l, p c = true) ∧ (l ++ d :: r).takeWhile p = l ∧ (l ++ d :: r).dropWhile p = d :: r) ∨
    (¬ (∀ c ∈ l, p c = true) ∧ ∃ t c u, c ∈ l ∧ (l ++ d :: r).takeWhile p = t ∧ (l ++ d :: r).dropWhile p = c :: u) := by
  intro l
  induction l with
  | nil => left; simp [hd]
  | cons x l ih =>
    by_cases hx : p x = true
    · rcases ih with ⟨h1, h2, h3⟩ | ⟨h1, t, c, u, hc, h2, h3⟩
      · left; exact ⟨by simpa [hx] using h1, by simp [hx, h2], by simp [hx, h3]⟩
      · right
        refine ⟨fun h => h1 fun c hc => h c (by simp [hc]), x :: t, c, u, by simp [hc], by simp [hx, h2], by simp [hx, h3]⟩
    · right
      refine ⟨fun h => hx (h x (by simp)), [], x, l ++ d :: r, by simp, by simp [hx], by simp [hx]⟩

theorem leaf_eq (t : IntType) (b : Base) {txt : List Char} (hc : Clean txt) (hne : txt ≠ []) {s : IStream} {d : Char} {r : List Char} (hs : s.Plain)
    (hr : s.rest = txt ++ d :: r) : readLeafF t b s = some (.ok (extractIntF t b s)) := by
  obtain ⟨c, u, rfl⟩ : ∃ c u, txt = c :: u := by
    cases txt with
    | nil => exact absurd rfl hne
    | cons c u => exact ⟨c, u, rfl⟩
  have := sentry_split hs (b := []) (x := c) (r := u ++ d :: r) blank_nil (hc c (by simp)).1 (by simpa using hr)
  have he : s.adv [] (c :: (u ++ d :: r)) = s := by cases s; simp only at hr; subst hr; rfl
  rw [he] at this
  simp [readLeafF, readIntF, this]

theorem extract_eq (t : IntType) (b : Base) {txt : List Char} (hne : txt ≠ []) {s : IStream} {d : Char} {r : List Char}
    (hd : d = ',' ∨ d = ']') (hr : s.rest = txt ++ d :: r) :
    let body := txt.drop (signLength txt)
    let k := (scanBase b body).1
    let ds := body.drop k
    let p := isMark (scanBase b body).2
    let run := (ds ++ d :: r).takeWhile p
    let rest' := (ds ++ d :: r).dropWhile p
    let s' := { s with before := (txt.take (signLength txt) ++ body.take k ++ run).reverse ++ s.before, rest := rest', eof := s.eof || rest'.isEmpty }
    extractIntF t b s =
      if run.isEmpty then (0, { s' with fail := true })
      else match represent t (decide (txt.take (signLength txt) = ['-'])) (valueIn (scanBase b body).2 0 run) with
        | some v => (v, s')
        | none => (if t.signed && decide (txt.take (signLength txt) = ['-']) then t.lo else t.hi, { s' with fail := true }) := by
  obtain ⟨h1, h2⟩ := signLength_app hne (d :: r)
  have h3 : (txt ++ d :: r).drop (signLength txt) = txt.drop (signLength txt) ++ d :: r := by
    rw [List.drop_append_of_le_length h2]
  have h4 : (txt ++ d :: r).take (signLength txt) = txt.take (signLength txt) := by
    rw [List.take_append_of_le_length h2]
  obtain ⟨h5, h6⟩ := scanBase_app hd b (txt.drop (signLength txt)) r
  have h7 : (txt.drop (signLength txt) ++ d :: r).drop (scanBase b (txt.drop (signLength txt))).1 =
      (txt.drop (signLength txt)).drop (scanBase b (txt.drop (signLength txt))).1 ++ d :: r := by
    rw [List.drop_append_of_le_length h6]
  have h8 : (txt.drop (signLength txt) ++ d :: r).take (scanBase b (txt.drop (signLength txt))).1 =
      (txt.drop (signLength txt)).take (scanBase b (txt.drop (signLength txt))).1 := by
    rw [List.take_append_of_le_length h6]
  simp only [extractIntF, hr, h1, h3, h4, h5, h7, h8]
  rfl

theorem leaf_good {t : IntType} {b : Base} {txt : List Char} (hc : Clean txt) (hne : txt ≠ []) {z : Int} (hz : parse t b txt = some z) :
    ReadsAs (readLeafF t b) txt z := by
  intro s d r hs hd hr
  rw [leaf_eq t b hc hne hs hr]
  have he := extract_eq t b hne hd hr
  simp only at he
  rw [he]
  simp only [parse] at hz
  split at hz
  · rename_i h
    obtain ⟨h1, h2⟩ := h
    rcases run_cases (isMark (scanBase b (txt.drop (signLength txt))).2) (not_mark hd _) r
      ((txt.drop (signLength txt)).drop (scanBase b (txt.drop (signLength txt))).1) with ⟨_, h3, h4⟩ | ⟨h3, _⟩
    · have h1' : (List.drop (scanBase b (txt.drop (signLength txt))).1 (txt.drop (signLength txt))).isEmpty = false := by
        rw [Bool.eq_false_iff]; intro e; exact h1 (List.isEmpty_iff.1 e)
      rw [h3, h4, hz, h1']
      have : txt.take (signLength txt) ++ (txt.drop (signLength txt)).take (scanBase b (txt.drop (signLength txt))).1 ++
          (txt.drop (signLength txt)).drop (scanBase b (txt.drop (signLength txt))).1 = txt := by
        rw [List.append_assoc, List.take_append_drop, List.take_append_drop]
      rw [this]
      simp [adv, hs.eof]
    · exact absurd h2 h3
  · cases hz

theorem leaf_bad {t : IntType} {b : Base} {txt : List Char} (hc : Clean txt) (hne : txt ≠ []) (hz : parse t b txt = none) :
    Breaks (readLeafF t b) txt := by
  intro s d r hs hd hr
  right
  rw [leaf_eq t b hc hne hs hr]
  refine ⟨(extractIntF t b s).1, (extractIntF t b s).2, rfl, ?_⟩
  have he := extract_eq t b hne hd hr
  simp only at he
  rw [he]
  simp only [parse] at hz
  rcases run_cases (isMark (scanBase b (txt.drop (signLength txt))).2) (not_mark hd _) r
    ((txt.drop (signLength txt)).drop (scanBase b (txt.drop (signLength txt))).1) with ⟨h2, h3, h4⟩ | ⟨h2, u, c, v, hcm, h3, h4⟩
  · left
    rw [h3, h4]
    by_cases h1 : (txt.drop (signLength txt)).drop (scanBase b (txt.drop (signLength txt))).1 = []
    · rw [h1]; simp [IStream.failed]
    · rw [if_pos ⟨h1, h2⟩] at hz
      have h1' : (List.drop (scanBase b (txt.drop (signLength txt))).1 (txt.drop (signLength txt))).isEmpty = false := by
        rw [Bool.eq_false_iff]; intro e; exact h1 (List.isEmpty_iff.1 e)
      rw [hz, h1']
      simp [IStream.failed]
  · rw [h3, h4]
    have hcc := hc c (List.mem_of_mem_drop (List.mem_of_mem_drop hcm))
    cases hu : u.isEmpty with
    | true => left; simp [IStream.failed]
    | false =>
      cases hrep : represent t (decide (txt.take (signLength txt) = ['-'])) (valueIn (scanBase b (txt.drop (signLength txt))).2 0 u) with
      | none => left; simp [IStream.failed]
      | some w =>
        right
        refine ⟨txt.take (signLength txt) ++ (txt.drop (signLength txt)).take (scanBase b (txt.drop (signLength txt))).1 ++ u, c, v, ?_, hcc⟩
        simp [adv, hs.eof]

/-! ## Digits -/

theorem digs_small {b n : Nat} (h : n < b) : digs b n = [n] := by
  rw [digs, if_pos (.inl h)]

theorem digs_large {b n : Nat} (hb : 2 ≤ b) (h : b ≤ n) : digs b n = digs b (n / b) ++ [n % b] := by
  rw [digs, if_neg (by omega)]

theorem digs_lt {b : Nat} (hb : 2 ≤ b) (n : Nat) : ∀ k ∈ digs b n, k < b := by
  induction n using Nat.strongRecOn with
  | _ n ih =>
    by_cases h : n < b
    · rw [digs_small h]; simpa using h
    · rw [digs_large hb (by omega)]
      intro k hk
      rcases List.mem_append.1 hk with hk | hk
      · exact ih (n / b) (Nat.div_lt_self (by omega) (by omega)) k hk
      · simp only [List.mem_singleton] at hk; subst hk; exact Nat.mod_lt _ (by omega)

theorem digs_ne (b n : Nat) : digs b n ≠ [] := by
  rw [digs]; split <;> simp

/-- The first digit of a number other than zero is not zero. -/
theorem digs_head {b : Nat} (hb : 2 ≤ b) (n : Nat) (hn : 0 < n) : ∃ k l, digs b n = k :: l ∧ 0 < k := by
  induction n using Nat.strongRecOn with
  | _ n ih =>
    by_cases h : n < b
    · exact ⟨n, [], digs_small h, hn⟩
    · obtain ⟨k, l, h1, h2⟩ := ih (n / b) (Nat.div_lt_self (by omega) (by omega)) (Nat.div_pos (by omega) (by omega))
      exact ⟨k, l ++ [n % b], by rw [digs_large hb (by omega), h1]; rfl, h2⟩

/-- Value of digits in base `c`. -/
def value (c : Nat) (l : List Nat) : Nat := l.foldl (fun a k => a * c + k) 0

theorem value_snoc (c : Nat) (l : List Nat) (k : Nat) : value c (l ++ [k]) = value c l * c + k := by
  simp [value, List.foldl_append]

theorem value_self {b : Nat} (hb : 2 ≤ b) (n : Nat) : value b (digs b n) = n := by
  induction n using Nat.strongRecOn with
  | _ n ih =>
    by_cases h : n < b
    · rw [digs_small h]; simp [value]
    · rw [digs_large hb (by omega), value_snoc, ih (n / b) (Nat.div_lt_self (by omega) (by omega))]
      rw [Nat.mul_comm]; exact Nat.div_add_mod n b

theorem value_le {b c : Nat} (hb : 2 ≤ b) (hc : c ≤ b) (n : Nat) : value c (digs b n) ≤ n := by
  induction n using Nat.strongRecOn with
  | _ n ih =>
    by_cases h : n < b
    · rw [digs_small h]; simp [value]
    · rw [digs_large hb (by omega), value_snoc]
      have h1 := ih (n / b) (Nat.div_lt_self (by omega) (by omega))
      have h2 : value c (digs b (n / b)) * c ≤ n / b * b := Nat.mul_le_mul h1 hc
      have h3 := Nat.div_add_mod n b
      rw [Nat.mul_comm] at h3
      omega

theorem value_ge {b c : Nat} (hb : 2 ≤ b) (hc : b ≤ c) (n : Nat) : n ≤ value c (digs b n) := by
  induction n using Nat.strongRecOn with
  | _ n ih =>
    by_cases h : n < b
    · rw [digs_small h]; simp [value]
    · rw [digs_large hb (by omega), value_snoc]
      have h1 := ih (n / b) (Nat.div_lt_self (by omega) (by omega))
      have h2 : n / b * b ≤ value c (digs b (n / b)) * c := Nat.mul_le_mul h1 hc
      have h3 := Nat.div_add_mod n b
      rw [Nat.mul_comm] at h3
      omega

theorem value_lt {b c : Nat} (hb : 2 ≤ b) (hc : c < b) {n : Nat} (hn : b ≤ n) : value c (digs b n) < n := by
  rw [digs_large hb hn, value_snoc]
  have h1 := value_le hb (Nat.le_of_lt hc) (n / b)
  have hpos : 0 < n / b := Nat.div_pos hn (by omega)
  have h2 : value c (digs b (n / b)) * c ≤ n / b * c := Nat.mul_le_mul_right c h1
  have h4 : n / b * c < n / b * b := Nat.mul_lt_mul_of_pos_left hc hpos
  have h3 := Nat.div_add_mod n b
  rw [Nat.mul_comm] at h3
  omega

theorem value_gt {b c : Nat} (hb : 2 ≤ b) (hc : b < c) {n : Nat} (hn : b ≤ n) : n < value c (digs b n) := by
  rw [digs_large hb hn, value_snoc]
  have h1 := value_ge hb (Nat.le_of_lt hc) (n / b)
  have hpos : 0 < n / b := Nat.div_pos hn (by omega)
  have h2 : n / b * c ≤ value c (digs b (n / b)) * c := Nat.mul_le_mul_right c h1
  have h4 : n / b * b < n / b * c := Nat.mul_lt_mul_of_pos_left hc hpos
  have h3 := Nat.div_add_mod n b
  rw [Nat.mul_comm] at h3
  omega

/-- Digits in one base read in another give the same number exactly if the bases agree or there is but one digit, common to both. -/
theorem same_value {b c : Nat} (hb : 2 ≤ b) (n : Nat) :
    ((∀ k ∈ digs b n, k < c) ∧ value c (digs b n) = n) ↔ b = c ∨ (n < b ∧ n < c) := by
  constructor
  · rintro ⟨h1, h2⟩
    by_cases h : n < b
    · right
      rw [digs_small h] at h1
      exact ⟨h, h1 n (by simp)⟩
    · left
      rcases Nat.lt_trichotomy b c with hc | hc | hc
      · have := value_gt hb hc (n := n) (by omega); omega
      · exact hc
      · have := value_lt hb hc (n := n) (by omega); omega
  · rintro (rfl | ⟨h1, h2⟩)
    · exact ⟨digs_lt hb n, value_self hb n⟩
    · rw [digs_small h1]; exact ⟨by simpa using h2, by simp [value]⟩

theorem markVal_mark (up : Bool) : ∀ {k : Nat}, k < 16 → markVal (mark up k) = some k := by
  have : ∀ (up : Bool) (k : Fin 16), markVal (mark up k.1) = some k.1 := by decide
  intro k hk; exact this up ⟨k, hk⟩

theorem isMark_mark (up : Bool) {k : Nat} (hk : k < 16) (r : Nat) : isMark r (mark up k) = decide (k < r) := by
  rw [isMark, markVal_mark up hk]

theorem clean_mark (up : Bool) : ∀ {k : Nat}, k < 16 → isSpace (mark up k) = false ∧ mark up k ≠ ',' ∧ mark up k ≠ ']' := by
  have : ∀ (up : Bool) (k : Fin 16), isSpace (mark up k.1) = false ∧ mark up k.1 ≠ ',' ∧ mark up k.1 ≠ ']' := by decide
  intro k hk; exact this up ⟨k, hk⟩

theorem mark_plain (up : Bool) : ∀ {k : Nat}, k < 16 → mark up k ≠ '+' ∧ mark up k ≠ '-' ∧ mark up k ≠ 'x' ∧ mark up k ≠ 'X' ∧ (0 < k → mark up k ≠ '0') := by
  have : ∀ (up : Bool) (k : Fin 16), mark up k.1 ≠ '+' ∧ mark up k.1 ≠ '-' ∧ mark up k.1 ≠ 'x' ∧ mark up k.1 ≠ 'X' ∧ (0 < k.1 → mark up k.1 ≠ '0') := by decide
  intro k hk; exact this up ⟨k, hk⟩

theorem valueIn_marks (r : Nat) (up : Bool) : ∀ (l : List Nat) (acc : Nat), (∀ k ∈ l, k < 16) →
    valueIn r acc (l.map (mark up)) = l.foldl (fun a k => a * r + k) acc := by
  intro l
  induction l with
  | nil => intro acc _; rfl
  | cons k l ih =>
    intro acc h
    simp only [List.map_cons, valueIn, List.foldl_cons, markVal_mark up (h k (by simp)), Option.getD_some]
    exact ih _ fun k hk => h k (by simp [hk])

theorem radix_le (b : Base) : 2 ≤ b.radix ∧ b.radix ≤ 16 := by cases b <;> decide

theorem digs_16 (f : Flags) (n : Nat) : ∀ k ∈ digs f.base.radix n, k < 16 := fun k hk =>
  Nat.lt_of_lt_of_le (digs_lt (radix_le f.base).1 n k hk) (radix_le f.base).2

/-! ## Texts of integers -/

theorem marks_ne (f : Flags) (n : Nat) : marks f n ≠ [] := by simp [marks, digs_ne]

theorem marks_mem {f : Flags} {n : Nat} {c : Char} (h : c ∈ marks f n) : ∃ k, k < 16 ∧ c = mark f.uppercase k := by
  obtain ⟨k, hk, rfl⟩ := List.mem_map.1 h
  exact ⟨k, digs_16 f n k hk, rfl⟩

theorem text_ne (t : IntType) (f : Flags) (i : Int) : intTextF t f i ≠ [] := by
  simp only [intTextF]
  split <;> simp [marks_ne]

theorem text_clean (t : IntType) (f : Flags) (i : Int) : Clean (intTextF t f i) := by
  have hm : ∀ n, Clean (marks f n) := fun n c hc => by
    obtain ⟨k, hk, rfl⟩ := marks_mem hc
    exact clean_mark _ hk
  have app : ∀ {a b : List Char}, Clean a → Clean b → Clean (a ++ b) := fun ha hb c hc => by
    rcases List.mem_append.1 hc with h | h
    · exact ha c h
    · exact hb c h
  simp only [intTextF]
  split
  · refine app ?_ (hm _)
    split <;> intro c hc <;> simp at hc
    subst hc; decide
  · refine app ?_ (hm _)
    split <;> intro c hc <;> simp at hc
    rcases hc with rfl | rfl
    · decide
    · split <;> decide
  · refine app ?_ (hm _)
    split
    · intro c hc; simp at hc; subst hc; decide
    · split <;> intro c hc <;> simp at hc
      subst hc; decide

theorem text_begins (t : IntType) (f : Flags) (i : Int) : Begins (intTextF t f i) := by
  have hc := text_clean t f i
  have hn := text_ne t f i
  cases h : intTextF t f i with
  | nil => exact absurd h hn
  | cons c r =>
    rw [h] at hc
    have := hc c (by simp)
    exact ⟨c, r, rfl, this.1, this.2.2⟩

theorem writes_text (t : IntType) (f : Flags) : WritesText (putIntF t f) (intTextF t f) := fun _ _ hf hw => put_text hf hw _

end Helper.Seq.Format
