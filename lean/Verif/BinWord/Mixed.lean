import Verif.BinWord.IO
import Verif.Seq.Nested
/-!
# C115: truth values and words in one stream

`operator<<` of a word (binary_word.hpp:228-238) leaves `boolalpha` set, so lists of truth values written before and after a word
are written differently, and the stream reads them with the flag that was set last.
-/
set_option linter.unusedSectionVars false
namespace Helper.BinWord
open Seq (Blank sepText)
open IStream

/-! ## Model -/

/-- Something written to the stream: a word or a `std::vector<bool>`. -/
inductive BItem where
  | word (w : Word)
  | list (xs : List Bool)
deriving DecidableEq, Repr

/-- `os << x << ' '`: binary_word.hpp:228-238 for words, container.hpp:127-135 for vectors. -/
def writeItem (os : OStream) : BItem → OStream
  | .word w => (writeWord os w).putChar ' '
  | .list xs => (Seq.printVector OStream.putBool os xs).putChar ' '

/-- The items, one after the other. -/
def writeAll : OStream → List BItem → OStream
  | os, [] => os
  | os, x :: t => writeAll (writeItem os x) t

/-- Which kind of item is read next. -/
inductive Kind where
  | word
  | list
deriving DecidableEq, Repr

/-- `is >> x` for a fresh object of the kind: binary_word.hpp:188-210 for words, stlio.hpp:278-283 for vectors. -/
def readItem (fuel : Nat) (is : IStream) : Kind → Option (Res (BItem × IStream))
  | .word =>
    match readWord fuel is [] with
    | some (.ok (w, is)) => some (.ok (.word w, is))
    | some (.ub k) => some (.ub k)
    | some (.exn e) => some (.exn e)
    | some .abort => some .abort
    | none => none
  | .list =>
    match Seq.readVector fuel (fun s => s.readBool false) is [] with
    | some (.ok (w, is)) => some (.ok (.list w, is))
    | some (.ub k) => some (.ub k)
    | some (.exn e) => some (.exn e)
    | some .abort => some .abort
    | none => none

/-- Several items, one after the other. -/
def readAll (fuel : Nat) : List Kind → IStream → Option (Res (List BItem))
  | [], _ => some (.ok [])
  | k :: ks, is =>
    match readItem fuel is k with
    | some (.ok (x, is)) =>
      match readAll fuel ks is with
      | some (.ok xs) => some (.ok (x :: xs))
      | r => r
    | some (.ub k) => some (.ub k)
    | some (.exn e) => some (.exn e)
    | some .abort => some .abort
    | none => none

/-- The string stream that was written to, used for reading: text and format flags are the same. -/
def rewind (os : OStream) : IStream := { IStream.ofList os.out with boolalpha := os.boolalpha }

/-! ## Specification -/

def BItem.kind : BItem → Kind
  | .word _ => .word
  | .list _ => .list

/-- A truth value as a number or as a word. -/
def boolText (alpha : Bool) (x : Bool) : List Char :=
  if alpha then (if x then "true".toList else "false".toList) else [if x then '1' else '0']

/-- A list of truth values. -/
def listText (alpha : Bool) (xs : List Bool) : List Char := '[' :: (sepText [','] (xs.map (boolText alpha)) ++ [']'])

/-- Blanks and one of the words `true` and `false`. -/
def AlphaItem (inp : List Char) (x : Bool) (rest : List Char) : Prop :=
  ∃ b, Blank b ∧ inp = b ++ (if x then "true".toList else "false".toList) ++ rest

/-! ## Reading one truth value as a word -/

theorem matchWord_ok : ∀ (w : List Char) (s : IStream) (r : List Char), s.rest = w ++ r → matchWord w s = (true, s.adv w r)
  | [], s, r, h => by simp at h; simp [matchWord, adv, ← h]
  | c :: w, s, r, h => by
    have h' : s.rest = c :: (w ++ r) := h
    rw [matchWord, h']
    simp only [beq_self_eq_true, if_true]
    rw [matchWord_ok w _ r rfl]
    simp [adv]

theorem matchWord_true : ∀ (w : List Char) (s : IStream), (matchWord w s).1 = true → ∃ r, s.rest = w ++ r
  | [], s, _ => ⟨s.rest, rfl⟩
  | c :: w, s, h => by
    rw [matchWord] at h
    cases hr : s.rest with
    | nil => rw [hr] at h; simp at h
    | cons x r =>
      rw [hr] at h
      simp only at h
      by_cases hx : (x == c) = true
      · rw [if_pos hx] at h
        obtain ⟨r', h'⟩ := matchWord_true w _ h
        simp at hx h'
        exact ⟨r', by simp [hx, h']⟩
      · rw [if_neg hx] at h; cases h

theorem matchWord_flags : ∀ (w : List Char) (s : IStream),
    (matchWord w s).2.fail = s.fail ∧ (matchWord w s).2.bad = s.bad
  | [], s => ⟨rfl, rfl⟩
  | c :: w, s => by
    rw [matchWord]
    split
    · exact ⟨rfl, rfl⟩
    · split
      · exact matchWord_flags w _
      · exact ⟨rfl, rfl⟩

theorem extractBool_alpha {s : IStream} (hb : s.boolalpha = true) {x : Bool} {r : List Char}
    (hr : s.rest = (if x then "true".toList else "false".toList) ++ r) :
    extractBool s = (x, s.adv (if x then "true".toList else "false".toList) r) := by
  cases x
  · have h := matchWord_ok ['f', 'a', 'l', 's', 'e'] s r hr
    have h' : s.rest = 'f' :: (['a', 'l', 's', 'e'] ++ r) := hr
    simp only [extractBool, hb, if_true, h', h]
    rfl
  · have h := matchWord_ok ['t', 'r', 'u', 'e'] s r hr
    have h' : s.rest = 't' :: (['r', 'u', 'e'] ++ r) := hr
    simp only [extractBool, hb, if_true, h', h]
    rfl

theorem extractBool_item {s : IStream} (hb : s.boolalpha = true)
    (h : (extractBool s).2.failed = false) :
    ∃ r, s.rest = (if (extractBool s).1 then "true".toList else "false".toList) ++ r := by
  have hnf : ∀ (a : Bool) (s' : IStream), extractBool s ≠ (a, { s' with fail := true }) := by
    intro a s' he; rw [he] at h; simp [IStream.failed] at h
  unfold extractBool at hnf
  rw [if_pos hb] at hnf
  match hr : s.rest with
  | [] =>
    have := hnf false { s with eof := s.eof || s.rest.isEmpty }
    rw [hr] at this
    exact absurd rfl this
  | c :: r =>
    by_cases ht : c = 't'
    · subst ht
      by_cases hm : (matchWord ['t', 'r', 'u', 'e'] s).1 = true
      · obtain ⟨r', hr'⟩ := matchWord_true _ _ hm
        have := extractBool_alpha hb (x := true) (r := r') hr'
        exact ⟨r', by rw [this, ← hr, hr']; rfl⟩
      · rw [hr] at hnf
        simp only [hm] at hnf
        exact absurd rfl (hnf _ _)
    · by_cases hf : c = 'f'
      · subst hf
        by_cases hm : (matchWord ['f', 'a', 'l', 's', 'e'] s).1 = true
        · obtain ⟨r', hr'⟩ := matchWord_true _ _ hm
          have := extractBool_alpha hb (x := false) (r := r') hr'
          exact ⟨r', by rw [this, ← hr, hr']; rfl⟩
        · rw [hr] at hnf
          simp only [hm] at hnf
          exact absurd rfl (hnf _ _)
      · exfalso
        have := hnf false { s with eof := s.eof || s.rest.isEmpty }
        apply this
        split
        · rename_i heq; rw [hr] at heq; cases heq; exact absurd rfl ht
        · rename_i heq; rw [hr] at heq; cases heq; exact absurd rfl hf
        · rfl

/-- The reader of one item with `eofbit` as after reading a number. -/
def markEof (p : Bool × IStream) : Bool × IStream := (p.1, { p.2 with eof := p.2.eof || p.2.rest.isEmpty })

theorem alphaText_head (x : Bool) : ∃ c t, (if x then "true".toList else "false".toList) = c :: t ∧ isSpace c = false := by
  cases x
  · exact ⟨'f', ['a', 'l', 's', 'e'], rfl, rfl⟩
  · exact ⟨'t', ['r', 'u', 'e'], rfl, rfl⟩

theorem readBool_alpha {s : IStream} (hs : s.Plain) (hb : s.boolalpha = true) {x : Bool} {rest : List Char}
    (h : AlphaItem s.rest x rest) (b0 : Bool) : ∃ t, s.rest = t ++ rest ∧ s.readBool b0 = (x, s.adv t rest) := by
  obtain ⟨b, hbl, hr⟩ := h
  obtain ⟨c, t, hct, hc⟩ := alphaText_head x
  refine ⟨b ++ (if x then "true".toList else "false".toList), by rw [hr], ?_⟩
  have hr' : s.rest = b ++ c :: (t ++ rest) := by rw [hr, hct]; simp
  have h1 := sentry_split hs hbl hc hr'
  unfold readBool
  rw [h1]
  simp only [if_true]
  rw [extractBool_alpha (s := s.adv b (c :: (t ++ rest))) (x := x) (r := rest) hb (by rw [hct]; rfl)]
  simp [adv]

theorem reads_alpha (b0 : Bool) :
    Seq.Reads (fun s => s.boolalpha = true) (fun s => markEof (s.readBool b0)) AlphaItem where
  reads := by
    intro s x rest hs hb h
    obtain ⟨t, h1, h2⟩ := readBool_alpha hs hb h b0
    refine ⟨t, h1, ?_⟩
    simp [markEof, h2, adv, hs.eof]
  item := by
    intro s hs hb hf
    have hf' : (s.readBool b0).2.failed = false := hf
    change AlphaItem s.rest (s.readBool b0).1 (s.readBool b0).2.rest
    rcases blank_or_split s.rest with hbl | ⟨b, x, r, hbl, hx, hr⟩
    · exfalso
      unfold readBool at hf'
      rw [sentry_blank hs hbl] at hf'
      simp [IStream.failed] at hf'
    · have h1 := sentry_split hs hbl hx hr
      unfold readBool at hf' ⊢
      rw [h1] at hf' ⊢
      simp only [if_true] at hf' ⊢
      obtain ⟨r', h2⟩ := extractBool_item (s := s.adv b (x :: r)) hb hf'
      have h3 := extractBool_alpha (s := s.adv b (x :: r)) hb h2
      have h4 : (extractBool (s.adv b (x :: r))).2.rest = r' := by rw [h3]; rfl
      refine ⟨b, hbl, ?_⟩
      rw [h4, List.append_assoc, ← h2, hr]; rfl
  notGood := fun h => readBool_notGood h b0
  adv := fun h _ _ => h
  blanks := by
    intro b y r x rest hb hy
    obtain ⟨c, t, hct, hc⟩ := alphaText_head x
    unfold AlphaItem
    rw [hct]
    constructor
    · rintro ⟨b', hb', h⟩
      have := split_unique (r' := t ++ rest) hb hb' hy hc (by rw [h]; simp)
      exact ⟨[], blank_nil, by rw [this.2.1, this.2.2]; rfl⟩
    · rintro ⟨b', hb', h⟩
      have := split_unique (b := []) (r' := t ++ rest) blank_nil hb' hy hc (by simpa using h)
      exact ⟨b, hb, by rw [this.2.1, this.2.2]; simp⟩

/-! ## The end of the text does not matter -/

theorem readChar_end {s : IStream} (hf : s.failed = false) (he : s.eof = false) (hr : s.rest = []) (c : Char) :
    (s.readChar (some c)).1 = some c ∧ (s.readChar (some c)).2.eof = true := by
  have hg : s.good = true := by
    simp [IStream.failed] at hf; simp [IStream.good, hf, he]
  unfold readChar sentry
  simp only [hg, skipBlanks, hr]
  cases s.skipws <;> simp [extract, hr]

theorem readLoop_mark (rd : IStream → Bool × IStream) {closing sep : Char} :
    ∀ (fuel : Nat) (c : Char) (v : List Bool) (s : IStream),
    Seq.readLoop (fun s => markEof (rd s)) closing sep fuel c v s = Seq.readLoop rd closing sep fuel c v s := by
  intro fuel
  induction fuel with
  | zero => intro c v s; rfl
  | succ fuel ih =>
    intro c v s
    rw [Seq.readLoop, Seq.readLoop]
    by_cases hc : c ≠ closing
    · rw [if_pos hc, if_pos hc]
      by_cases he : s.eof = true
      · rw [if_pos he, if_pos he]
      · rw [if_neg he, if_neg he]
        by_cases hsp : c ≠ sep
        · rw [if_pos hsp, if_pos hsp]
        · rw [if_neg hsp, if_neg hsp]
          have hf : (markEof (rd s)).2.failed = (rd s).2.failed := rfl
          simp only [hf]
          by_cases hfl : (rd s).2.failed = true
          · rw [if_pos hfl, if_pos hfl]
          · rw [if_neg hfl, if_neg hfl]
            by_cases hend : (rd s).2.eof = false ∧ (rd s).2.rest = []
            · have hfl' : (rd s).2.failed = false := by simpa using hfl
              have h1 := readChar_end hfl' hend.1 hend.2 c
              have h2 : (markEof (rd s)).2.good = false := by simp [markEof, IStream.good, hend.2]
              rw [readChar_notGood h2, h1.1]
              simp only
              cases fuel with
              | zero => rfl
              | succ fuel =>
                rw [Seq.readLoop, Seq.readLoop, if_pos hc, if_pos hc, if_pos h1.2]
                simp [markEof, hend.2]
            · have : markEof (rd s) = rd s := by
                unfold markEof
                have : ((rd s).2.eof || (rd s).2.rest.isEmpty) = (rd s).2.eof := by
                  cases h : (rd s).2.eof
                  · cases h' : (rd s).2.rest with
                    | nil => exact absurd ⟨h, h'⟩ hend
                    | cons _ _ => rfl
                  · rfl
                rw [this]
              rw [this]
              simp only [ih]
    · rw [if_neg hc, if_neg hc]

theorem readSequence_mark (rd : IStream → Bool × IStream) {opening closing sep : Char} (fuel : Nat)
    (s : IStream) (v : List Bool) :
    Seq.readSequence fuel (fun s => markEof (rd s)) s v opening closing sep = Seq.readSequence fuel rd s v opening closing sep := by
  simp only [Seq.readSequence, readLoop_mark rd]

/-- Which lists of truth values are read when `boolalpha` is set: the words `true` and `false`, nothing else. -/
theorem C115_grammar {s : IStream} (hs : s.Plain) (hb : s.boolalpha = true) (v : List Bool) (hnb : ¬ Blank s.rest) :
    ∃ res, (∀ fuel, s.rest.length + 2 ≤ fuel → Seq.readVector fuel (fun s => s.readBool false) s v = some res) ∧
      ((∃ xs s', res = .ok (xs, s') ∧ s'.good = true ∧ Seq.Sequence AlphaItem '[' ']' ',' s.rest xs s'.rest) ∨
       (res = .exn .iosFailure ∧ ∀ xs rest, ¬ Seq.Sequence AlphaItem '[' ']' ',' s.rest xs rest)) := by
  have := Seq.C20_readSequence (reads_alpha false) (opening := '[') (closing := ']') (sep := ',') (by decide) (by decide)
    (by decide) (by decide) (by decide) hs hb v hnb
  simp only [readSequence_mark] at this
  exact this

/-- The texts `[true, false]` and `[tru]` on such a stream. -/
example : Seq.readVector 30 (fun s => s.readBool false) { IStream.ofList "[true, false]".toList with boolalpha := true } [] =
    some (.ok ([true, false], { IStream.ofList [] with boolalpha := true, before := "]eslaf ,eurt[".toList })) := by decide +kernel
example : Seq.readVector 30 (fun s => s.readBool false) { IStream.ofList "[tru]".toList with boolalpha := true } [] =
    some (.exn .iosFailure) := by decide +kernel

/-! ## Reading a list with the flag it was written with, and with the other one -/

theorem boolText_head (f x : Bool) : ∃ c t, boolText f x = c :: t ∧ isSpace c = false ∧ c ≠ ']' := by
  cases f <;> cases x
  · exact ⟨'0', [], rfl, by decide, by decide⟩
  · exact ⟨'1', [], rfl, by decide, by decide⟩
  · exact ⟨'f', ['a', 'l', 's', 'e'], rfl, by decide, by decide⟩
  · exact ⟨'t', ['r', 'u', 'e'], rfl, by decide, by decide⟩

theorem items_alpha (rest : List Char) : ∀ (x : Bool) (xs : List Bool),
    Seq.Items AlphaItem ']' ',' (sepText [','] ((x :: xs).map (boolText true)) ++ ']' :: rest) (x :: xs) rest := by
  intro x xs
  induction xs generalizing x with
  | nil => exact .last (b := []) ⟨[], blank_nil, by simp [sepText, boolText]⟩ blank_nil
  | cons z zs ih =>
    refine .more (b := []) (tail := sepText [','] ((z :: zs).map (boolText true)) ++ ']' :: rest) ?_ blank_nil (ih z)
    exact ⟨[], blank_nil, by simp [sepText, boolText]⟩

/-- The list's text is a sequence of the items of the format. -/
theorem sequence_list (f : Bool) {b : List Char} (hb : Blank b) (xs : List Bool) (rest : List Char) :
    Seq.Sequence (if f then AlphaItem else Seq.BitItem) '[' ']' ',' (b ++ listText f xs ++ rest) xs rest := by
  refine ⟨b, sepText [','] (xs.map (boolText f)) ++ ']' :: rest, hb, by simp [listText], ?_⟩
  cases xs with
  | nil => exact .inl ⟨rfl, [], blank_nil, rfl⟩
  | cons x xs =>
    refine .inr ⟨?_, ?_⟩
    · obtain ⟨u, hu⟩ := Seq.sepText_head [','] (boolText f x) (xs.map (boolText f))
      obtain ⟨c, t, hc, hsp, hne⟩ := boolText_head f x
      rw [List.map_cons, hu, hc]
      have : c :: t ++ u ++ ']' :: rest = [] ++ c :: (t ++ u ++ ']' :: rest) := by simp
      rw [this]
      exact Seq.not_startsWith blank_nil (by decide) hsp hne
    · cases f
      · exact items_bits rest x xs
      · exact items_alpha rest x xs

/-- A list of truth values is read back by a stream with the flag it was written with. -/
theorem C115_same {s : IStream} (hs : s.Plain) (f : Bool) (hf : s.boolalpha = f) {b : List Char} (hb : Blank b)
    (xs v : List Bool) (rest : List Char) (hr : s.rest = b ++ listText f xs ++ rest) (fuel : Nat) (hfuel : xs.length < fuel) :
    Seq.readVector fuel (fun s => s.readBool false) s v = some (.ok (xs, s.adv (b ++ listText f xs) rest)) := by
  have hseq := sequence_list f hb xs rest
  rw [← hr] at hseq
  have key : ∃ t, s.rest = t ++ rest ∧
      Seq.readSequence fuel (fun s => s.readBool false) s v '[' ']' ',' = some (.ok (xs, s.adv t rest)) := by
    cases f
    · exact Seq.readSequence_ok (Seq.reads_bit false) (by decide) (by decide) (by decide) (by decide) hs hf v xs hseq fuel hfuel
    · have := Seq.readSequence_ok (reads_alpha false) (by decide) (by decide) (by decide) (by decide) hs hf v xs hseq fuel hfuel
      simp only [readSequence_mark] at this
      exact this
  obtain ⟨t, h1, h2⟩ := key
  rw [hr] at h1
  rw [Seq.readVector, h2, List.append_cancel_right h1]

example : Seq.readVector 9 (fun s => s.readBool false) { IStream.ofList " [false,true] x".toList with boolalpha := true } [true] =
    some (.ok ([false, true], { IStream.ofList " x".toList with boolalpha := true, before := "]eurt,eslaf[ ".toList })) := by
  decide +kernel

theorem readBool_other {s : IStream} (hs : s.Plain) (f x : Bool) (hf : s.boolalpha = !f) (u : List Char)
    (hr : s.rest = boolText f x ++ u) : (s.readBool false).2.failed = true := by
  obtain ⟨c, t, hc, hsp, _⟩ := boolText_head f x
  have hr' : s.rest = [] ++ c :: (t ++ u) := by rw [hr, hc]; rfl
  have h1 := sentry_split hs blank_nil hsp hr'
  unfold readBool
  rw [h1]
  simp only [if_true]
  cases f <;> cases x <;> simp only [boolText, Bool.false_eq_true, if_true, if_false] at hc <;>
    (first | (have hc' : c = '0' ∧ t = [] := by simpa using hc.symm) | (have hc' : c = '1' ∧ t = [] := by simpa using hc.symm)
           | (have hc' : c = 'f' := by simpa using (congrArg List.head? hc).symm)
           | (have hc' : c = 't' := by simpa using (congrArg List.head? hc).symm))
  · simp [extractBool, adv, hf, hc'.1, IStream.failed]
  · simp [extractBool, adv, hf, hc'.1, IStream.failed]
  · subst hc'
    simp [extractBool, extractInt, adv, hf, IStream.failed, signLength, isDigit]
  · subst hc'
    simp [extractBool, extractInt, adv, hf, IStream.failed, signLength, isDigit]

/-- A non-empty list of truth values written with one setting of `boolalpha` cannot be read with the other. -/
theorem C115_other {s : IStream} (hs : s.Plain) (f : Bool) (hf : s.boolalpha = !f) {b : List Char} (hb : Blank b)
    (x : Bool) (xs v : List Bool) (rest : List Char) (hr : s.rest = b ++ listText f (x :: xs) ++ rest) (fuel : Nat) (hfuel : 0 < fuel) :
    Seq.readVector fuel (fun s => s.readBool false) s v = some (.exn .iosFailure) := by
  obtain ⟨fuel, rfl⟩ : ∃ m, fuel = m + 1 := ⟨fuel - 1, by omega⟩
  obtain ⟨u, hu⟩ := Seq.sepText_head [','] (boolText f x) (xs.map (boolText f))
  obtain ⟨c, t, hc, hsp, hne⟩ := boolText_head f x
  have hr1 : s.rest = b ++ '[' :: (c :: (t ++ u ++ ']' :: rest)) := by
    rw [hr, listText, List.map_cons, hu, hc]; simp
  have h1 := readChar_split hs hb (by decide) hr1 none
  have hp1 := adv_plain hs (b ++ ['[']) (c :: (t ++ u ++ ']' :: rest))
  have h2 := readChar_split hp1 blank_nil hsp (show (s.adv (b ++ ['[']) (c :: (t ++ u ++ ']' :: rest))).rest = [] ++ _ from rfl)
    (some '[')
  have h3 := putback_adv hp1 [] c (t ++ u ++ ']' :: rest)
  unfold Seq.readVector Seq.readSequence
  simp only [h1, h2, ne_eq, not_true_eq_false, if_false, hne, not_false_eq_true, if_true, h3]
  rw [Seq.readLoop]
  have hp2 := adv_plain hp1 [] (c :: (t ++ u ++ ']' :: rest))
  have h4 := readBool_other hp2 f x hf (u ++ ']' :: rest) (by rw [hc]; simp [adv])
  rw [if_pos (by decide), hp2.eof]
  simp only [Bool.false_eq_true, if_false, not_true_eq_false, ne_eq, h4, if_true]

example : Seq.readVector 9 (fun s => s.readBool false) { IStream.ofList "[0]".toList with boolalpha := true } [] =
    some (.exn .iosFailure) := by decide +kernel
example : Seq.readVector 9 (fun s => s.readBool false) (IStream.ofList "[true]".toList) [] = some (.exn .iosFailure) := by
  decide +kernel

/-! ## Writing -/

theorem printVector_bool (os : OStream) (hf : os.failed = false) (hw : os.width = 0) (xs : List Bool) :
    Seq.printVector OStream.putBool os xs = { os with out := os.out ++ listText os.boolalpha xs } := by
  have hput : ∀ (o : OStream) (l : List Char), (o.put l).boolalpha = o.boolalpha := by
    intro o l; unfold OStream.put; split <;> rfl
  have key : ∀ (f : Bool) (xs : List Bool) (first : Bool) (os : OStream), os.boolalpha = f →
      Seq.printLoop OStream.putBool ['['] [','] first os xs =
        Seq.printLoop (fun os b => os.put (boolText f b)) ['['] [','] first os xs := by
    intro f xs
    induction xs with
    | nil => intro first os _; rfl
    | cons x t ih =>
      intro first os h
      rw [Seq.printLoop, Seq.printLoop]
      have : (os.put (if first then ['['] else [','])).putBool x =
          (os.put (if first then ['['] else [','])).put (boolText f x) := by
        unfold OStream.putBool
        rw [hput, h]; cases f <;> cases x <;> rfl
      rw [this]
      exact ih false _ (by rw [hput, hput, h])
  have hwr : Seq.Writes (fun (o : OStream) b => o.put (boolText os.boolalpha b)) (fun b => boolText os.boolalpha b) := by
    intro o x h1 h2; simp [OStream.put, h1, h2]
  have h2 := Seq.C18_printVector hwr os hf xs
  unfold Seq.printVector at h2 ⊢
  rw [key os.boolalpha xs true os rfl, h2]
  simp [Seq.written, hw, listText]

/-- The text of the items, `f` being the flag when the first one is written. -/
def itemsText : Bool → List BItem → List Char
  | _, [] => []
  | f, .word w :: t => wordText w ++ ' ' :: itemsText (f || !w.isEmpty) t
  | f, .list xs :: t => listText f xs ++ ' ' :: itemsText f t

/-- The flag after the items have been written: set if it was, or if a non-empty word was written. -/
def lastFlag (f : Bool) (items : List BItem) : Bool :=
  f || items.any fun x => match x with
    | .word w => !w.isEmpty
    | .list _ => false

theorem writeAll_eq : ∀ (items : List BItem) (os : OStream), os.failed = false → os.width = 0 →
    writeAll os items = { os with out := os.out ++ itemsText os.boolalpha items, boolalpha := lastFlag os.boolalpha items } := by
  intro items
  induction items with
  | nil => intro os _ _; simp [writeAll, itemsText, lastFlag]
  | cons x t ih =>
    intro os hf hw
    rw [writeAll]
    cases x with
    | word w =>
      have h : writeItem os (.word w) =
          { os with out := os.out ++ wordText w ++ [' '], boolalpha := os.boolalpha || !w.isEmpty } := by
        rw [writeItem, writeWord_eq os hf]
        simp [OStream.putChar, OStream.put, hf, hw]
      rw [h, ih _ (by exact hf) (by exact hw)]
      simp [itemsText, lastFlag, Bool.or_assoc]
    | list xs =>
      have h : writeItem os (.list xs) = { os with out := os.out ++ listText os.boolalpha xs ++ [' '] } := by
        rw [writeItem, printVector_bool os hf hw]
        simp [OStream.putChar, OStream.put, hf, hw]
      rw [h, ih _ (by exact hf) (by exact hw)]
      simp [itemsText, lastFlag]

/-! ## Reading the items back -/

/-- Every non-empty list was written with the flag `F`. -/
def agrees (F : Bool) : Bool → List BItem → Bool
  | _, [] => true
  | f, .word w :: t => agrees F (f || !w.isEmpty) t
  | f, .list xs :: t => (xs.isEmpty || f == F) && agrees F f t

theorem readAll_eq (fuel : Nat) (F : Bool) : ∀ (items : List BItem) (f : Bool) (s : IStream) (b : List Char),
    (∀ w, BItem.word w ∈ items → w ≠ [] ∧ w.length < fuel) → (∀ xs, BItem.list xs ∈ items → xs.length < fuel) →
    s.Plain → s.boolalpha = F → Blank b → s.rest = b ++ itemsText f items →
    readAll fuel (items.map BItem.kind) s = if agrees F f items then some (.ok items) else some (.exn .iosFailure) := by
  intro items
  induction items with
  | nil => intro f s b _ _ _ _ _ _; rfl
  | cons x t ih =>
    intro f s b hw hl hs hF hb hr
    have hsp : Blank [' '] := by intro c hc; simp at hc; rw [hc]; decide
    have ih' := fun f s b => ih f s b (fun w h => hw w (List.mem_cons_of_mem _ h)) (fun xs h => hl xs (List.mem_cons_of_mem _ h))
    cases x with
    | word w =>
      obtain ⟨hne, hlen⟩ := hw w (by simp)
      have hbt : bitsText w ≠ [] := by simpa [bitsText] using hne
      have hr' : s.rest = b ++ bitsText w ++ ' ' :: itemsText (f || !w.isEmpty) t := by
        rw [hr, itemsText, wordText, if_neg hne]; simp
      have h := readWord_bits hs hb (bitsText_isBit w) hr'
        (by intro y t h hy; simp at h; rw [← h.1] at hy; simp [IsBit] at hy) (.inl hbt) [] fuel (by simpa [bitsText] using hlen)
      rw [after_cons hs, bitsText_bitOf] at h
      rw [List.map_cons, BItem.kind, readAll, readItem, h]
      simp only
      rw [ih' (f || !w.isEmpty) (s.adv (b ++ bitsText w) (' ' :: itemsText (f || !w.isEmpty) t)) [' '] (adv_plain hs _ _) hF hsp rfl, agrees]
      cases agrees F (f || !w.isEmpty) t <;> simp
    | list xs =>
      have hlen := hl xs (by simp)
      have hr' : s.rest = b ++ listText f xs ++ ' ' :: itemsText f t := by rw [hr, itemsText]; simp
      rw [List.map_cons, BItem.kind, readAll, readItem, agrees]
      by_cases hff : f = F
      · rw [C115_same hs f (by rw [hF, hff]) hb xs [] _ hr' fuel hlen]
        simp only
        rw [ih' f (s.adv (b ++ listText f xs) (' ' :: itemsText f t)) [' '] (adv_plain hs _ _) hF hsp rfl]
        cases h : agrees F f t <;> simp [hff]
      · cases xs with
        | nil =>
          rw [C115_same hs F hF hb [] [] (' ' :: itemsText f t) (by rw [hr']; rfl) fuel hlen]
          simp only
          rw [ih' f (s.adv (b ++ listText F []) (' ' :: itemsText f t)) [' '] (adv_plain hs _ _) hF hsp rfl]
          cases h : agrees F f t <;> simp
        | cons x xs =>
          rw [C115_other hs f (by rw [hF]; cases f <;> cases F <;> simp at hff ⊢) hb x xs [] _ hr' fuel (by omega)]
          have : (f == F) = false := by simpa using hff
          simp [this]

theorem agrees_true : ∀ (items : List BItem), agrees true true items = true
  | [] => rfl
  | .word w :: t => by simpa [agrees] using agrees_true t
  | .list xs :: t => by simpa [agrees] using agrees_true t

theorem agrees_false : ∀ (items : List BItem), (∀ w, BItem.word w ∉ items) → agrees false false items = true
  | [], _ => rfl
  | .word w :: t, h => absurd (List.mem_cons_self ..) (h w)
  | .list xs :: t, h => by
    simpa [agrees] using agrees_false t fun w hw => h w (List.mem_cons_of_mem _ hw)

theorem agrees_before : ∀ (items : List BItem), (∀ w, BItem.word w ∈ items → w ≠ []) →
    (agrees true false items = true ↔ ∀ xs before after, items = before ++ .list xs :: after →
      (∀ w, BItem.word w ∉ before) → xs = [])
  | [], _ => by simp [agrees]
  | .word w :: t, h => by
    have hw : w ≠ [] := h w (by simp)
    have h1 : agrees true false (.word w :: t) = true := by
      have : (false || !w.isEmpty) = true := by cases w <;> simp at hw ⊢
      rw [agrees, this]; exact agrees_true t
    simp only [h1, true_iff]
    intro xs before after heq hno
    cases before with
    | nil => simp at heq
    | cons y ys =>
      simp only [List.cons_append, List.cons.injEq] at heq
      exact absurd (heq.1 ▸ List.mem_cons_self ..) (hno w)
  | .list ys :: t, h => by
    have ih := agrees_before t fun w hw => h w (List.mem_cons_of_mem _ hw)
    rw [agrees, Bool.and_eq_true, ih]
    constructor
    · rintro ⟨h1, h2⟩ xs before after heq hno
      cases before with
      | nil =>
        simp only [List.nil_append, List.cons.injEq, BItem.list.injEq] at heq
        rw [← heq.1]; simpa using h1
      | cons z zs =>
        simp only [List.cons_append, List.cons.injEq] at heq
        exact h2 xs zs after heq.2 fun w hw => hno w (List.mem_cons_of_mem _ hw)
    · intro hall
      refine ⟨?_, fun xs before after heq hno => ?_⟩
      · have := hall ys [] t rfl (by simp)
        simp [this]
      · exact hall xs (.list ys :: before) after (by rw [heq]; rfl) (by
          intro w hw
          rcases List.mem_cons.1 hw with hw | hw
          · cases hw
          · exact hno w hw)

/-- Somewhere a non-empty list comes before all words, and there is a word. -/
def ListFirst (items : List BItem) : Prop :=
  ∃ xs before middle w after, items = before ++ .list xs :: (middle ++ .word w :: after) ∧ xs ≠ [] ∧ ∀ w, BItem.word w ∉ before

/-- C115: non-empty words and lists of truth values written to a string stream are read back, except when `boolalpha` was off at
first and a non-empty list was written before the first word; then the reading throws. Missing for the full claim: that case, for
which it is false. -/
theorem C115_readBack_partial (os : OStream) (hf : os.failed = false) (hw : os.width = 0) (ho : os.out = []) (items : List BItem)
    (hne : ∀ w, BItem.word w ∈ items → w ≠ []) (fuel : Nat) (hfw : ∀ w, BItem.word w ∈ items → w.length < fuel)
    (hfl : ∀ xs, BItem.list xs ∈ items → xs.length < fuel) :
    (os.boolalpha = false ∧ ListFirst items →
      readAll fuel (items.map BItem.kind) (rewind (writeAll os items)) = some (.exn .iosFailure)) ∧
    (¬ (os.boolalpha = false ∧ ListFirst items) →
      readAll fuel (items.map BItem.kind) (rewind (writeAll os items)) = some (.ok items)) := by
  have hrun := readAll_eq fuel (lastFlag os.boolalpha items) items os.boolalpha (rewind (writeAll os items)) []
    (fun w h => ⟨hne w h, hfw w h⟩) hfl ⟨rfl, rfl, rfl, rfl⟩ (by rw [writeAll_eq items os hf hw]; rfl) blank_nil
    (by rw [writeAll_eq items os hf hw]; simp [rewind, IStream.ofList, ho])
  rw [hrun]
  have hany : (∃ w, BItem.word w ∈ items) → ∀ f, lastFlag f items = true := by
    rintro ⟨w, h⟩ f
    have := hne w h
    simp only [lastFlag, Bool.or_eq_true, List.any_eq_true]
    exact .inr ⟨.word w, h, by cases w <;> simp at this ⊢⟩
  constructor
  · rintro ⟨hb, xs, before, middle, w, after, heq, hxs, hno⟩
    rw [hany ⟨w, by rw [heq]; simp⟩, hb, if_neg]
    intro h
    exact hxs ((agrees_before items hne).1 h xs before _ heq hno)
  · intro hnot
    rw [if_pos]
    cases hb : os.boolalpha with
    | true => exact agrees_true items
    | false =>
      by_cases hex : ∃ w, BItem.word w ∈ items
      · rw [hany hex, agrees_before items hne]
        intro xs before after heq hno
        refine Classical.byContradiction fun hxs => hnot ⟨hb, ?_⟩
        obtain ⟨w, hw⟩ := hex
        rw [heq] at hw
        rcases List.mem_append.1 hw with hw | hw
        · exact absurd hw (hno w)
        · rcases List.mem_cons.1 hw with hw | hw
          · cases hw
          · obtain ⟨m, a, rfl⟩ := List.append_of_mem hw
            exact ⟨xs, before, m, w, a, heq, hxs, hno⟩
      · have : lastFlag false items = false := by
          simp only [lastFlag, Bool.false_or, List.any_eq_false]
          intro x hx
          cases x with
          | word w => exact absurd ⟨w, hx⟩ hex
          | list xs => simp
        rw [this]
        exact agrees_false items fun w h => hex ⟨w, h⟩

/-- Both cases occur. -/
example : ListFirst [.list [true], .word [true]] := ⟨[true], [], [], [true], [], rfl, by simp, by simp⟩
example : (writeAll OStream.fresh [.word [true], .list [true, false]]).out = "1 [true,false] ".toList := by decide +kernel
example : readAll 9 [.word, .list] (rewind (writeAll OStream.fresh [.word [true], .list [true, false]])) =
    some (.ok [.word [true], .list [true, false]]) := by decide +kernel
example : readAll 9 [.list] (rewind (writeAll OStream.fresh [.list [true, false]])) = some (.ok [.list [true, false]]) := by
  decide +kernel

/-- C115 is false: a list and a word are written; the list cannot be read back, though it can before the word is written. -/
theorem C115_refuted : ∃ (l w : BItem) (fuel : Nat),
    readAll fuel [l.kind] (rewind (writeAll OStream.fresh [l])) = some (.ok [l]) ∧
    readAll fuel [w.kind] (rewind (writeAll OStream.fresh [w])) = some (.ok [w]) ∧
    readAll fuel [w.kind, l.kind] (rewind (writeAll OStream.fresh [w, l])) = some (.ok [w, l]) ∧
    readAll fuel [l.kind, w.kind] (rewind (writeAll OStream.fresh [l, w])) = some (.exn .iosFailure) :=
  ⟨.list [true], .word [true], 9, by decide +kernel⟩

end Helper.BinWord
