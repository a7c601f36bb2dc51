import Verif.BinWord.Props
import Verif.Seq.Props
/-!
# C13–C16: reading and writing binary words
-/
set_option linter.unusedSectionVars false
namespace Helper.BinWord
open Seq (Blank sepText)
open IStream

/-- The bit of a character. -/
def bitOf (c : Char) : Bool := c == '1'

theorem isBit_digit {c : Char} (h : IsBit c) : isSpace c = false ∧ c ≠ '[' := by
  rcases h with rfl | rfl <;> decide

theorem isBit_bool {c : Char} : IsBit c ↔ (c == '0' || c == '1') = true := by
  simp [IsBit]

theorem bitOf_eq {c : Char} (h : IsBit c) : (if c == '0' then false else true) = bitOf c := by
  rcases h with rfl | rfl <;> decide

theorem get_cons {s : IStream} (h : s.Plain) {x : Char} {r : List Char} (hr : s.rest = x :: r)
    (c : Option Char) : s.get c = (some x, s.adv [x] r) := by
  simp [IStream.get, sentry, h.good, extract, hr, adv]

theorem get_nil {s : IStream} (h : s.Plain) (hr : s.rest = []) (c : Option Char) :
    s.get c = (c, { s with eof := true, fail := true }) := by
  simp [IStream.get, sentry, h.good, extract, hr]

/-- The stream after a word has been read, the text `t` consumed and `tail` left: at the end of
the text failbit stays set. -/
def after (s : IStream) (t tail : List Char) : IStream :=
  { s.adv t tail with fail := tail.isEmpty }

theorem after_cons {s : IStream} (h : s.Plain) (t : List Char) (y : Char) (tl : List Char) :
    after s t (y :: tl) = s.adv t (y :: tl) := by
  simp [after, adv, h.fail]

theorem readBits_run {tail : List Char} (htail : ∀ y t, tail = y :: t → ¬ IsBit y) :
    ∀ (ds : List Char), (∀ c ∈ ds, IsBit c) → ∀ (c : Char), IsBit c → ∀ (s : IStream) (w : Word)
      (fuel : Nat), s.Plain → s.rest = ds ++ tail → ds.length + 1 < fuel →
      ∃ c' s', readBits fuel c w s = some (.ok (c', w ++ (c :: ds).map bitOf, s')) ∧
        s'.putback c' = after s ds tail := by
  intro ds
  induction ds with
  | nil =>
    intro _ c hc s w fuel hs hr hf
    obtain ⟨fuel, rfl⟩ : ∃ m, fuel = m + 2 := ⟨fuel - 2, by simp at hf; omega⟩
    have hnf : s.failed = false := by simp [failed, hs.fail, hs.bad]
    have hcb := isBit_bool.1 hc
    cases tail with
    | nil =>
      refine ⟨c, { s with eof := true, fail := true }, ?_, ?_⟩
      · rw [readBits]
        simp only [hnf, hcb, get_nil hs hr, bitOf_eq hc]
        simp only [Bool.not_false, Bool.and_self, if_true]
        rw [readBits]
        simp [failed]
      · rw [putback_failed rfl]
        simp at hr
        simp [after, adv, hs.eof, hr]
    | cons y t =>
      have hyb : (y == '0' || y == '1') = false := by
        have := htail y t rfl
        rw [isBit_bool] at this
        simpa using this
      refine ⟨y, s.adv [y] t, ?_, ?_⟩
      · rw [readBits]
        simp only [hnf, hcb, get_cons hs hr, bitOf_eq hc]
        simp only [Bool.not_false, Bool.and_self, if_true]
        rw [readBits]
        simp [hyb]
      · rw [after_cons hs]
        exact putback_adv hs [] y t
  | cons d ds ih =>
    intro hds c hc s w fuel hs hr hf
    obtain ⟨fuel, rfl⟩ : ∃ m, fuel = m + 1 := ⟨fuel - 1, by simp at hf; omega⟩
    have hnf : s.failed = false := by simp [failed, hs.fail, hs.bad]
    have hcb := isBit_bool.1 hc
    have hr' : s.rest = d :: (ds ++ tail) := hr
    obtain ⟨c', s', h1, h2⟩ := ih (fun c hc => hds c (List.mem_cons_of_mem _ hc)) d (hds d (by simp))
      (s.adv [d] (ds ++ tail)) (w ++ [bitOf c]) fuel (adv_plain hs _ _) rfl (by simp at hf; omega)
    refine ⟨c', s', ?_, ?_⟩
    · rw [readBits]
      simp only [hnf, hcb, get_cons hs hr', bitOf_eq hc]
      simp only [Bool.not_false, Bool.and_self, if_true]
      rw [h1]
      simp
    · rw [h2]
      simp [after, adv]

/-- Reading a word in the form without brackets. -/
theorem readWord_bits {s : IStream} (hs : s.Plain) {b ds tail : List Char} (hb : Blank b)
    (hds : ∀ c ∈ ds, IsBit c) (hr : s.rest = b ++ ds ++ tail)
    (htail : ∀ y t, tail = y :: t → ¬ IsBit y)
    (hstart : ds ≠ [] ∨ ∃ y t, tail = y :: t ∧ isSpace y = false ∧ y ≠ '[')
    (w : Word) (fuel : Nat) (hf : ds.length < fuel) :
    readWord fuel s w = some (.ok (ds.map bitOf, after s (b ++ ds) tail)) := by
  cases ds with
  | nil =>
    rcases hstart with h | ⟨y, t, rfl, hy, hyb⟩
    · exact absurd rfl h
    · have h1 := readChar_split hs hb hy (show s.rest = b ++ y :: t by rw [hr]; simp) none
      obtain ⟨fuel, rfl⟩ : ∃ m, fuel = m + 1 := ⟨fuel - 1, by omega⟩
      have hyb' : (y == '0' || y == '1') = false := by
        have := htail y t rfl
        rw [isBit_bool] at this
        simpa using this
      simp only [readWord, h1, hyb, if_false, readBits, hyb', Bool.and_false, Bool.false_eq_true,
        List.drop_length, List.map_nil]
      rw [putback_adv hs, List.append_nil, after_cons hs]
  | cons d ds =>
    have hd := isBit_digit (hds d (by simp))
    have h1 := readChar_split hs hb hd.1 (show s.rest = b ++ d :: (ds ++ tail) by rw [hr]; simp) none
    obtain ⟨c', s', h2, h3⟩ := readBits_run htail ds (fun c hc => hds c (List.mem_cons_of_mem _ hc))
      d (hds d (by simp)) (s.adv (b ++ [d]) (ds ++ tail)) [] fuel (adv_plain hs _ _) rfl (by simpa using hf)
    simp only [readWord, h1, hd.2, if_false, List.drop_length, h2, h3]
    simp [after, adv]

/-- Reading a word in the bracketed form is reading a `vector<bool>`. -/
theorem readWord_bracket {s : IStream} (hs : s.Plain) {b r : List Char} (hb : Blank b)
    (hr : s.rest = b ++ '[' :: r) (w : Word) (fuel : Nat) :
    readWord fuel s w = Seq.readVector fuel (fun s => s.readBool false) (s.adv b ('[' :: r)) [] := by
  have h1 := readChar_split hs hb (by decide) hr none
  simp only [readWord, h1, if_true, List.drop_length]
  rw [putback_adv hs]

/-! ## C14 -/

/-- C14 is false for blank strings (the empty string included): `symbol` (line 193) is used
uninitialised. -/
theorem C14_blank_refuted (s : List Char) (hb : Blank s) (fuel : Nat) :
    makeBinaryWord fuel s = some (.ub .indeterminate) := by
  have hs : (IStream.ofList s).Plain := ⟨rfl, rfl, rfl, rfl⟩
  simp [makeBinaryWord, readWord, readChar_blank hs hb]

example : makeBinaryWord 5 [] = some (.ub .indeterminate) := by decide

/-- C14 for strings whose first non-blank character is not `[`: the longest run of 0/1 that starts
there. Missing for the full claim: blank strings, for which it is false. -/
theorem C14_run_partial {b : List Char} {y : Char} {r : List Char} (hb : Blank b)
    (hy : isSpace y = false) (hyb : y ≠ '[') (fuel : Nat) (hf : (b ++ y :: r).length < fuel) :
    ∃ ds tail, y :: r = ds ++ tail ∧ (∀ c ∈ ds, IsBit c) ∧ (∀ c t, tail = c :: t → ¬ IsBit c) ∧
      makeBinaryWord fuel (b ++ y :: r) = some (.ok (ds.map bitOf)) := by
  let p : Char → Bool := fun c => c == '0' || c == '1'
  have happ : (y :: r).takeWhile p ++ (y :: r).dropWhile p = y :: r := List.takeWhile_append_dropWhile
  have h1 : ∀ c ∈ (y :: r).takeWhile p, IsBit c := fun c hc => isBit_bool.2 (mem_takeWhile_imp c hc)
  have h2 : ∀ c t, (y :: r).dropWhile p = c :: t → ¬ IsBit c := by
    intro c t h hc
    have := dropWhile_head c t h
    rw [isBit_bool] at hc
    exact absurd hc (by simpa [p] using this)
  refine ⟨_, _, happ.symm, h1, h2, ?_⟩
  have hs : (IStream.ofList (b ++ y :: r)).Plain := ⟨rfl, rfl, rfl, rfl⟩
  have hstart : (y :: r).takeWhile p ≠ [] ∨
      ∃ y' t, (y :: r).dropWhile p = y' :: t ∧ isSpace y' = false ∧ y' ≠ '[' := by
    by_cases hp : p y = true
    · left; simp [hp]
    · right; exact ⟨y, r, by simp [hp], hy, hyb⟩
  have hlen : ((y :: r).takeWhile p).length ≤ (y :: r).length := (List.takeWhile_sublist p).length_le
  have := readWord_bits hs hb h1 (tail := (y :: r).dropWhile p)
    (by rw [List.append_assoc, happ]; rfl) h2 hstart [] fuel
    (by simp at hlen hf ⊢; omega)
  simp [makeBinaryWord, this]

example : makeBinaryWord 50 " 0110[1".toList = some (.ok [false, true, true, false]) := by decide
example : makeBinaryWord 50 " x01".toList = some (.ok []) := by decide

/-- C14 for strings whose first non-blank character is `[`: reading a `vector<bool>`, which returns
exactly the bits of a bracketed list and throws otherwise. -/
theorem C14_bracket_partial {b r : List Char} (hb : Blank b) :
    ∃ res, (∀ fuel, (b ++ '[' :: r).length + 2 ≤ fuel → makeBinaryWord fuel (b ++ '[' :: r) = some res) ∧
      ((∃ xs rest, res = .ok xs ∧ Seq.Sequence Seq.BitItem '[' ']' ',' ('[' :: r) xs rest) ∨
       (res = .exn .iosFailure ∧
          ∀ xs rest, ¬ Seq.Sequence Seq.BitItem '[' ']' ',' ('[' :: r) xs rest)) := by
  have hs : (IStream.ofList (b ++ '[' :: r)).Plain := ⟨rfl, rfl, rfl, rfl⟩
  have h0 := readWord_bracket hs hb rfl []
  have hnb : ¬ Blank ((IStream.ofList (b ++ '[' :: r)).adv b ('[' :: r)).rest := fun h => by
    have := h '[' (by simp [adv])
    simp [isSpace] at this
  obtain ⟨res, h1, h2⟩ := Seq.C20_readSequence (Seq.reads_bit false) (opening := '[') (closing := ']')
    (sep := ',') (by decide) (by decide) (by decide) (by decide) (by decide)
    (adv_plain hs b ('[' :: r)) rfl [] hnb
  rcases h2 with ⟨xs, s', rfl, _, h2⟩ | ⟨rfl, h2⟩
  · refine ⟨.ok xs, fun fuel hf => ?_, .inl ⟨xs, s'.rest, rfl, h2⟩⟩
    have := h1 fuel (by simp [adv] at hf ⊢; omega)
    unfold makeBinaryWord
    rw [h0, Seq.readVector, this]
  · refine ⟨.exn .iosFailure, fun fuel hf => ?_, .inr ⟨rfl, h2⟩⟩
    have := h1 fuel (by simp [adv] at hf ⊢; omega)
    unfold makeBinaryWord
    rw [h0, Seq.readVector, this]

example : makeBinaryWord 50 " [0, 1 ,1]".toList = some (.ok [false, true, true]) := by decide
example : makeBinaryWord 50 "[0,2]".toList = some (.exn .iosFailure) := by decide

/-! ## C16 and the written text -/

theorem writeBits_text (w : Word) : ∀ os : OStream, os.failed = false → os.width = 0 →
    os.boolalpha = false → writeBits os w = { os with out := os.out ++ bitsText w } := by
  induction w with
  | nil => intro os _ _ _; simp [writeBits, bitsText]
  | cons b t ih =>
    intro os hf hw hb
    rw [writeBits]
    have : os.putBool b = { os with out := os.out ++ [if b then '1' else '0'] } := by
      cases b <;> simp [OStream.putBool, OStream.put, hf, hw, hb]
    rw [this, ih _ (by exact hf) (by exact hw) (by exact hb)]
    simp [bitsText]

/-- What `os << w` does: the text is the bits of the word (`e` if it is empty), a pending width pads
the first character, and `boolalpha` is set unless the word is empty. -/
theorem writeWord_eq (os : OStream) (hf : os.failed = false) (w : Word) :
    writeWord os w = { os with
      out := os.out ++ List.replicate (os.width - 1) os.fill ++ wordText w
      width := 0
      boolalpha := os.boolalpha || !w.isEmpty } := by
  cases w with
  | nil => simp [writeWord, OStream.putChar, OStream.put, hf, wordText]
  | cons b t =>
    simp only [writeWord, List.isEmpty_cons, Bool.false_eq_true, if_false, writeBits]
    have : OStream.putBool { os with boolalpha := false } b =
        { os with boolalpha := false, width := 0
                  out := os.out ++ List.replicate (os.width - 1) os.fill ++ [if b then '1' else '0'] } := by
      cases b <;> simp [OStream.putBool, OStream.put, hf]
    rw [this, writeBits_text t _ (by exact hf) rfl rfl]
    simp [wordText, bitsText]

/-- C16 is false: after `os << w` on a fresh stream, `os << true` writes `true` instead of `1`. -/
theorem C16_refuted (w : Word) (hne : w ≠ []) :
    (writeWord OStream.fresh w).boolalpha ≠ OStream.fresh.boolalpha ∧
    ((writeWord OStream.fresh w).putBool true).out = wordText w ++ ['t', 'r', 'u', 'e'] ∧
    (OStream.putBool OStream.fresh true).out = ['1'] := by
  rw [writeWord_eq _ rfl]
  obtain ⟨b, t, rfl⟩ := List.exists_cons_of_ne_nil hne
  simp [OStream.fresh, OStream.putBool, OStream.put]

/-- C16, what holds: the text is right, and (apart from the width, which every output resets) the
formatting is preserved exactly when the word is empty or `boolalpha` was already set. Missing for
the full claim: the remaining case, for which it is false. -/
theorem C16_format_partial (os : OStream) (hf : os.failed = false) (w : Word) :
    (writeWord os w).out = os.out ++ List.replicate (os.width - 1) os.fill ++ wordText w ∧
    (writeWord os w).fill = os.fill ∧ (writeWord os w).width = 0 ∧
    (writeWord os w).failed = false ∧
    ((writeWord os w).boolalpha = os.boolalpha ↔ w = [] ∨ os.boolalpha = true) := by
  rw [writeWord_eq os hf]
  refine ⟨rfl, rfl, rfl, hf, ?_⟩
  cases w <;> cases os.boolalpha <;> simp

/-! ## C13 -/

theorem bitsText_isBit (w : Word) : ∀ c ∈ bitsText w, IsBit c := by
  intro c hc
  simp only [bitsText, List.mem_map] at hc
  obtain ⟨b, _, rfl⟩ := hc
  cases b <;> simp [IsBit]

theorem bitsText_bitOf (w : Word) : (bitsText w).map bitOf = w := by
  simp only [bitsText, List.map_map]
  have : (bitOf ∘ fun b => if b = true then '1' else '0') = id := by
    funext b; cases b <;> simp [bitOf]
  rw [this]; simp

/-- C13: `BinaryWord(to_string(w))` is `w`, for every word. -/
theorem C13_roundTrip (w : Word) (fuel : Nat) (hf : w.length < fuel) :
    ofString fuel (Seq.toString writeWord w) = some (.ok w) := by
  unfold Seq.toString ofString makeBinaryWord
  rw [writeWord_eq _ rfl]
  simp only [OStream.fresh, List.nil_append, Nat.zero_sub, List.replicate_zero]
  have hs : (IStream.ofList (wordText w)).Plain := ⟨rfl, rfl, rfl, rfl⟩
  by_cases hw : w = []
  · subst hw
    have := readWord_bits hs (b := []) (ds := []) (tail := ['e']) blank_nil (by simp) rfl
      (by intro y t h; simp at h; rw [← h.1]; simp [IsBit]) (.inr ⟨'e', [], rfl, by decide, by decide⟩)
      [] fuel hf
    rw [this]; rfl
  · have hb : bitsText w ≠ [] := by simpa [bitsText] using hw
    have := readWord_bits hs (b := []) (ds := bitsText w) (tail := []) blank_nil (bitsText_isBit w)
      (by simp [IStream.ofList, wordText, hw]) (by simp) (.inl hb) [] fuel (by simpa [bitsText] using hf)
    rw [this]
    simp [bitsText_bitOf]

theorem bitItem_bit (x : Bool) {rest : List Char} (hr : ∀ c r, rest = c :: r → ¬ ('0' ≤ c ∧ c ≤ '9')) :
    Seq.BitItem ((if x then '1' else '0') :: rest) x rest := by
  cases x
  · exact ⟨[], [], ['0'], blank_nil, .inl rfl, by simp, by decide, hr, rfl, by decide, by decide, by decide⟩
  · exact ⟨[], [], ['1'], blank_nil, .inl rfl, by simp, by decide, hr, rfl, by decide, by decide, by decide⟩

theorem items_bits (rest : List Char) : ∀ (x : Bool) (xs : List Bool),
    Seq.Items Seq.BitItem ']' ',' (sepText [','] ((x :: xs).map fun b => [if b then '1' else '0']) ++ ']' :: rest)
      (x :: xs) rest := by
  intro x xs
  induction xs generalizing x with
  | nil =>
    refine .last (b := []) ?_ blank_nil
    exact bitItem_bit x (by intro c r h; simp at h; rw [← h.1]; decide)
  | cons z zs ih =>
    refine .more (b := []) (tail := sepText [','] ((z :: zs).map fun b => [if b then '1' else '0']) ++ ']' :: rest)
      ?_ blank_nil (ih z)
    exact bitItem_bit x (by intro c r h; simp at h; rw [← h.1]; decide)

/-- C13: the bracketed form is read back as well; the text following the word is left. -/
theorem C13_bracketed (w : Word) (fuel : Nat) (hf : w.length < fuel) (following : List Char) :
    ofString fuel ((Seq.printVector OStream.putBool OStream.fresh w).out ++ following) = some (.ok w) := by
  have hpv : (Seq.printVector OStream.putBool OStream.fresh w).out =
      '[' :: (sepText [','] (w.map fun b => [if b then '1' else '0']) ++ [']']) := by
    -- `putBool` without boolalpha writes the digit
    have key : ∀ (xs : Word) (first : Bool) (os : OStream), os.boolalpha = false →
        Seq.printLoop OStream.putBool ['['] [','] first os xs =
          Seq.printLoop (fun os b => os.put [if b then '1' else '0']) ['['] [','] first os xs := by
      intro xs
      induction xs with
      | nil => intro first os _; rfl
      | cons x t ih =>
        intro first os h
        rw [Seq.printLoop, Seq.printLoop]
        have hput : ∀ (o : OStream) (l : List Char), (o.put l).boolalpha = o.boolalpha := by
          intro o l; unfold OStream.put; split <;> rfl
        have : (os.put (if first then ['['] else [','])).putBool x =
            (os.put (if first then ['['] else [','])).put [if x then '1' else '0'] := by
          unfold OStream.putBool
          rw [hput, h]; cases x <;> rfl
        rw [this]
        exact ih false _ (by rw [hput, hput, h])
    have hw : Seq.Writes (fun (os : OStream) b => os.put [if b = true then '1' else '0'])
        (fun b => [if b = true then '1' else '0']) := by
      intro os x h1 h2; simp [OStream.put, h1, h2]
    have h2 := Seq.C18_printVector hw OStream.fresh rfl w
    unfold Seq.printVector at h2 ⊢
    rw [key w true OStream.fresh rfl, h2]
    simp [Seq.written, OStream.fresh]
  rw [hpv]
  unfold ofString makeBinaryWord
  have hs : (IStream.ofList ('[' :: (sepText [','] (w.map fun b => [if b then '1' else '0']) ++ [']']) ++ following)).Plain :=
    ⟨rfl, rfl, rfl, rfl⟩
  rw [readWord_bracket hs (b := []) blank_nil rfl]
  obtain ⟨t, _, h⟩ := Seq.readSequence_ok (Seq.reads_bit false) (opening := '[') (closing := ']')
    (sep := ',') (by decide) (by decide) (by decide) (by decide)
    (adv_plain hs [] ('[' :: (sepText [','] (w.map fun b => [if b then '1' else '0']) ++ [']'] ++ following)))
    rfl [] w (rest := following) (by
      refine ⟨[], _, blank_nil, rfl, ?_⟩
      cases w with
      | nil => exact .inl ⟨rfl, [], blank_nil, rfl⟩
      | cons x xs =>
        refine .inr ⟨?_, ?_⟩
        · obtain ⟨u, hu⟩ := Seq.sepText_head [','] [if x then '1' else '0'] (xs.map fun b => [if b then '1' else '0'])
          rw [List.map_cons, hu]
          have : ([if x then '1' else '0'] ++ u ++ [']'] ++ following) =
              [] ++ (if x then '1' else '0') :: (u ++ [']'] ++ following) := by simp
          rw [this]
          exact Seq.not_startsWith blank_nil (by decide) (by cases x <;> decide) (by cases x <;> decide)
        · have := items_bits following x xs
          simpa using this) fuel hf
  erw [Seq.readVector, h]

example : ofString 9 (Seq.toString writeWord [true, false, true]) = some (.ok [true, false, true]) := by decide

/-! ## C15 -/

/-- `is >> w` for `n` words one after the other. -/
def readWords (fuel : Nat) : Nat → IStream → Option (Res (List Word))
  | 0, _ => some (.ok [])
  | n + 1, is =>
    match readWord fuel is [] with
    | some (.ok (w, is)) =>
      match readWords fuel n is with
      | some (.ok ws) => some (.ok (w :: ws))
      | r => r
    | some (.ub k) => some (.ub k)
    | some (.exn e) => some (.exn e)
    | some .abort => some .abort
    | none => none

theorem readWords_stuck {fuel : Nat} (hf : 0 < fuel) (n : Nat) : ∀ (s : IStream), s.Plain →
    ∀ b r, Blank b → s.rest = b ++ 'e' :: r → readWords fuel n s = some (.ok (List.replicate n [])) := by
  induction n with
  | zero => intro s _ b r _ _; rfl
  | succ n ih =>
    intro s hs b r hb hr
    have := readWord_bits hs hb (ds := []) (tail := 'e' :: r) (by simp) (by rw [hr]; simp)
      (by intro y t h; simp at h; rw [← h.1]; simp [IsBit]) (.inr ⟨'e', r, rfl, by decide, by decide⟩)
      [] fuel hf
    rw [readWords, this]
    simp only
    rw [after_cons hs, ih (s.adv (b ++ []) ('e' :: r)) (adv_plain hs _ _) [] r blank_nil rfl]
    simp [List.replicate_succ]

/-- What reading back `ws.length` words gives: the words up to the first empty one, then only
empty words (the `e` of an empty word is put back and stays in the stream). -/
theorem C15_general {sep : List Char} (hsep : Blank sep) (hne : sep ≠ []) (ws : List Word)
    (fuel : Nat) (hf : ∀ w ∈ ws, w.length < fuel) (hf0 : 0 < fuel) : ∀ (s : IStream), s.Plain →
    ∀ b, Blank b → s.rest = b ++ sepText sep (ws.map wordText) →
    readWords fuel ws.length s = some (.ok (ws.takeWhile (· ≠ []) ++
      List.replicate (ws.dropWhile (· ≠ [])).length [])) := by
  induction ws with
  | nil => intro s _ b _ _; rfl
  | cons w ws ih =>
    intro s hs b hb hr
    by_cases hw : w = []
    · subst hw
      obtain ⟨u, hu⟩ := Seq.sepText_head sep (wordText []) (ws.map wordText)
      have hr' : s.rest = b ++ 'e' :: u := by
        rw [hr, List.map_cons, hu]; simp [wordText]
      rw [readWords_stuck hf0 _ s hs b u hb hr']
      simp
    · have hbt : bitsText w ≠ [] := by simpa [bitsText] using hw
      have hwf : (bitsText w).length < fuel := by simpa [bitsText] using hf w (by simp)
      cases ws with
      | nil =>
        have := readWord_bits hs hb (bitsText_isBit w) (tail := []) (by
          rw [hr]; simp [sepText, wordText, hw]) (by simp) (.inl hbt) [] fuel hwf
        simp [readWords, this, bitsText_bitOf, hw]
      | cons w2 ws =>
        obtain ⟨c, sep', rfl⟩ := List.exists_cons_of_ne_nil hne
        have hc : isSpace c = true := hsep c (by simp)
        have := readWord_bits hs hb (bitsText_isBit w)
          (tail := (c :: sep') ++ sepText (c :: sep') ((w2 :: ws).map wordText)) (by
          rw [hr]; simp [sepText, wordText, hw]) (by
            intro y t h hy
            simp at h; rw [← h.1] at hy
            rw [(isBit_digit hy).1] at hc; simp at hc) (.inl hbt) [] fuel hwf
        rw [List.length_cons, readWords, this]
        simp only
        rw [List.cons_append, after_cons hs,
          ih (fun w hw => hf w (List.mem_cons_of_mem _ hw)) _ (adv_plain hs _ _) (c :: sep') hsep (by
            simp [adv])]
        simp [bitsText_bitOf, hw]

/-- C15 holds exactly for the sequences in which no non-empty word follows an empty one (in
particular for all sequences of non-empty words). Missing for the full claim: the other sequences,
for which it is false. -/
theorem C15_iff_partial {sep : List Char} (hsep : Blank sep) (hne : sep ≠ []) (ws : List Word)
    (fuel : Nat) (hf : ∀ w ∈ ws, w.length < fuel) (hf0 : 0 < fuel) :
    readWords fuel ws.length (.ofList (sepText sep (ws.map wordText))) = some (.ok ws) ↔
      ∃ us n, (∀ u ∈ us, u ≠ []) ∧ ws = us ++ List.replicate n [] := by
  rw [C15_general hsep hne ws fuel hf hf0 _ ⟨rfl, rfl, rfl, rfl⟩ [] blank_nil rfl]
  simp only [Option.some.injEq, Res.ok.injEq]
  constructor
  · intro h
    refine ⟨_, _, ?_, h.symm⟩
    intro u hu
    clear h hf
    induction ws with
    | nil => simp at hu
    | cons w ws ih =>
      by_cases hw : w = []
      · simp [hw] at hu
      · simp [hw] at hu
        rcases hu with rfl | hu
        · exact hw
        · exact ih (by simpa using hu)
  · rintro ⟨us, n, hus, rfl⟩
    clear hf
    induction us with
    | nil => cases n <;> simp
    | cons u us ih =>
      have hu := hus u (by simp)
      have := ih fun v hv => hus v (List.mem_cons_of_mem _ hv)
      simp [hu] at this ⊢
      exact this

/-- C15 is false in general: an empty word followed by a non-empty one. -/
theorem C15_refuted : readWords 50 2 (.ofList "e 1".toList) = some (.ok [[], []]) ∧
    sepText [' '] ([[], [true]].map wordText) = "e 1".toList := by decide

/-- C15: the text read back is the text that `operator<<` writes for the words separated by blanks
(although the first word switches `boolalpha` on). -/
theorem C15_written (ws : List Word) (os : OStream) (hf : os.failed = false) (hw : os.width = 0) :
    (Seq.writeItems writeWord ' ' os ws).out = os.out ++ sepText [' '] (ws.map wordText) := by
  induction ws generalizing os with
  | nil => simp [Seq.writeItems, sepText]
  | cons w ws ih =>
    cases ws with
    | nil => simp [Seq.writeItems, sepText, writeWord_eq os hf, hw]
    | cons w2 ws =>
      rw [Seq.writeItems]
      simp only [writeWord_eq os hf, OStream.putChar]
      rw [Seq.put_width0 (by exact hf) rfl, ih _ (by exact hf) rfl]
      simp [sepText, hw]

example : readWords 50 3 (.ofList "01 1 e".toList) = some (.ok [[false, true], [true], []]) := by decide

end Helper.BinWord
