import Verif.Seq.SinkProps
import Verif.Seq.Props
import Verif.BinWord.IO
/-!
# C141: a field width (`std::setw`) and the adjustment of containers, pairs and words

The writers (`Seq/SinkModel.lean`) pass the stream on to their output operations, the first of which uses up the width.
-/
set_option linter.unusedSectionVars false
namespace Helper.Seq.Adjust
open Helper.Seq.Sink IStream

variable {T : Type u} {K : Type v}

/-! ## Model -/

/-- An output stream that is good and takes everything; `left` is whether `std::left` is set. (`std::internal` is as `std::right` for everything
that is not a number with a sign or a base, and the first thing that is written is never one.) -/
structure Out where
  out : List Char
  boolalpha : Bool
  width : Nat
  fill : Char
  left : Bool
deriving DecidableEq, Repr

/-- Padding [ostream.formatted.reqmts]: after the text if `left` is set, before it otherwise. -/
def pad (left : Bool) (width : Nat) (fill : Char) (text : List Char) : List Char :=
  if left then text ++ List.replicate (width - text.length) fill else List.replicate (width - text.length) fill ++ text

/-- A formatted output operation. -/
def Out.put (s : Out) (text : List Char) : Out := { s with out := s.out ++ pad s.left s.width s.fill text, width := 0 }

/-- One operation of a writer (elements do not throw here). -/
def act1 (s : Out) : Op → Out
  | .put t => s.put t
  | .bool b => s.put (boolText s.boolalpha b)
  | .alpha b => { s with boolalpha := b }
  | .raise => s

/-- The operations of a writer. -/
def act (s : Out) (l : List Op) : Out := l.foldl act1 s

/-! ## Specification -/

/-- The texts of the operations one after the other. -/
def texts : Bool → List Op → List Char
  | _, [] => []
  | a, .put t :: l => t ++ texts a l
  | a, .bool b :: l => boolText a b ++ texts a l
  | _, .alpha b :: l => texts b l
  | a, .raise :: l => texts a l

/-- The first text and the rest. -/
def first : Bool → List Op → Option (List Char × List Char)
  | _, [] => none
  | a, .put t :: l => some (t, texts a l)
  | a, .bool b :: l => some (boolText a b, texts a l)
  | _, .alpha b :: l => first b l
  | a, .raise :: l => first a l

/-! ## Proofs -/

theorem act_cons (s : Out) (o : Op) (l : List Op) : act s (o :: l) = act (act1 s o) l := rfl

theorem put_zero {s : Out} (h : s.width = 0) (t : List Char) : s.put t = { s with out := s.out ++ t } := by
  cases s; simp only at h; subst h; simp [Out.put, pad]

theorem act_zero : ∀ (l : List Op) (s : Out), s.width = 0 → (act s l).out = s.out ++ texts s.boolalpha l ∧ (act s l).width = 0
  | [], s, h => ⟨by simp [act, texts], h⟩
  | .put t :: l, s, h => by
    rw [act_cons, act1, put_zero h]
    have := act_zero l { s with out := s.out ++ t } h
    exact ⟨by rw [this.1]; simp [texts], this.2⟩
  | .bool b :: l, s, h => by
    rw [act_cons, act1, put_zero h]
    have := act_zero l { s with out := s.out ++ boolText s.boolalpha b } h
    exact ⟨by rw [this.1]; simp [texts], this.2⟩
  | .alpha b :: l, s, h => act_zero l { s with boolalpha := b } h
  | .raise :: l, s, h => act_zero l s h

theorem texts_first : ∀ (l : List Op) (a : Bool), texts a l = match first a l with | some (t, r) => t ++ r | none => []
  | [], _ => rfl
  | .put _ :: _, _ => rfl
  | .bool _ :: _, _ => rfl
  | .alpha b :: l, _ => texts_first l b
  | .raise :: l, a => texts_first l a

/-- **C141**: what is written: the first text is padded, as a string would be, and the others are not. -/
theorem C141_first : ∀ {l : List Op} {s : Out} {t r : List Char}, first s.boolalpha l = some (t, r) →
    (act s l).out = s.out ++ pad s.left s.width s.fill t ++ r ∧ (act s l).width = 0 ∧ texts s.boolalpha l = t ++ r
  | [], s, t, r, h => by simp [first] at h
  | .put u :: l, s, t, r, h => by
    simp only [first, Option.some.injEq, Prod.mk.injEq] at h
    obtain ⟨rfl, rfl⟩ := h
    have := act_zero l (s.put u) rfl
    exact ⟨this.1, this.2, rfl⟩
  | .bool b :: l, s, t, r, h => by
    simp only [first, Option.some.injEq, Prod.mk.injEq] at h
    obtain ⟨rfl, rfl⟩ := h
    have := act_zero l (s.put (boolText s.boolalpha b)) rfl
    exact ⟨this.1, this.2, rfl⟩
  | .alpha b :: l, s, t, r, h => C141_first (l := l) (s := { s with boolalpha := b }) h
  | .raise :: l, s, t, r, h => C141_first (l := l) (s := s) h

theorem pad_length (left : Bool) (w : Nat) (c : Char) (t : List Char) : (pad left w c t).length = max w t.length := by
  unfold pad
  cases left <;> simp <;> omega

theorem pad_small (left : Bool) {w : Nat} (c : Char) {t : List Char} (h : w ≤ t.length) : pad left w c t = t := by
  unfold pad
  have : w - t.length = 0 := by omega
  cases left <;> simp [this]

/-- **C141**: the text is padded as a whole, as a string is, exactly if the width is not greater than the first text, or this is the whole text. -/
theorem C141_iff_partial {l : List Op} {s : Out} {t r : List Char} (h : first s.boolalpha l = some (t, r)) :
    (act s l).out = s.out ++ pad s.left s.width s.fill (texts s.boolalpha l) ↔ s.width ≤ t.length ∨ r = [] := by
  obtain ⟨h1, _, h2⟩ := C141_first h
  rw [h1, h2, List.append_assoc, List.append_cancel_left_eq]
  constructor
  · intro he
    have hl := congrArg List.length he
    rw [List.length_append, pad_length, pad_length, List.length_append] at hl
    rcases r with _ | ⟨c, r⟩
    · exact .inr rfl
    · left; simp only [List.length_cons] at hl; omega
  · rintro (hw | rfl)
    · rw [pad_small _ _ hw, pad_small _ _ (by simp; omega)]
    · simp

theorem texts_append (l m : List Op) : ∀ a, ∃ b, texts a (l ++ m) = texts a l ++ texts b m := by
  induction l with
  | nil => exact fun a => ⟨a, rfl⟩
  | cons o l ih =>
    intro a
    cases o with
    | put t => obtain ⟨b, hb⟩ := ih a; exact ⟨b, by simp [texts, hb]⟩
    | bool c => obtain ⟨b, hb⟩ := ih a; exact ⟨b, by simp [texts, hb]⟩
    | alpha c => obtain ⟨b, hb⟩ := ih c; exact ⟨b, by simp [texts, hb]⟩
    | raise => obtain ⟨b, hb⟩ := ih a; exact ⟨b, by simp [texts, hb]⟩

theorem texts_last (l : List Op) (t : List Char) (ht : t ≠ []) (a : Bool) : texts a (l ++ [.put t]) ≠ [] := by
  obtain ⟨b, hb⟩ := texts_append l [.put t] a
  rw [hb]
  simp [texts, ht]

/-- A container whose first operation writes `o` and whose last one writes something. -/
theorem whole {s : Out} (o c : List Char) (hc : c ≠ []) (m : List Op) :
    (act s (.put o :: (m ++ [.put c]))).out = s.out ++ pad s.left s.width s.fill (texts s.boolalpha (.put o :: (m ++ [.put c]))) ↔
      s.width ≤ o.length := by
  rw [C141_iff_partial (t := o) (r := texts s.boolalpha (m ++ [.put c])) rfl]
  constructor
  · rintro (h | h)
    · exact h
    · exact absurd h (texts_last m c hc _)
  · exact .inl

/-- **C141**: vectors, arrays, sets, maps, pairs and sequences are padded as a whole exactly if the width is at most that of the opening text, which
means that there is nothing to pad; words also if they have at most one letter. -/
theorem C141_containers (s : Out) (g : K → List Op) (f : T → List Op) :
    (∀ xs : List T, (act s (vectorOps f xs)).out = s.out ++ pad s.left s.width s.fill (texts s.boolalpha (vectorOps f xs)) ↔ s.width ≤ 1) ∧
    (∀ xs : List T, (act s (setOps f xs)).out = s.out ++ pad s.left s.width s.fill (texts s.boolalpha (setOps f xs)) ↔ s.width ≤ 1) ∧
    (∀ (xs : List T) (o c e : Char), (act s (sequenceOps f xs o c e)).out =
      s.out ++ pad s.left s.width s.fill (texts s.boolalpha (sequenceOps f xs o c e)) ↔ s.width ≤ 1) ∧
    (∀ p : K × T, (act s (pairOps g f p)).out = s.out ++ pad s.left s.width s.fill (texts s.boolalpha (pairOps g f p)) ↔ s.width ≤ 1) ∧
    (∀ xs : List (K × T), (act s (mapOps g f xs)).out = s.out ++ pad s.left s.width s.fill (texts s.boolalpha (mapOps g f xs)) ↔
      s.width ≤ if xs = [] then 1 else 2) ∧
    (∀ w : BinWord.Word, (act s (wordOps w)).out = s.out ++ pad s.left s.width s.fill (texts s.boolalpha (wordOps w)) ↔
      s.width ≤ 1 ∨ w.length ≤ 1) := by
  refine ⟨fun xs => ?_, fun xs => ?_, fun xs o c e => ?_, fun p => ?_, fun xs => ?_, fun w => ?_⟩
  · cases xs with
    | nil => exact whole ['['] [']'] (by simp) []
    | cons x xs => simpa [vectorOps, loopOps] using whole (s := s) ['['] [']'] (by simp) (f x ++ loopOps f ['['] [','] false xs)
  · cases xs with
    | nil => exact whole ['{'] ['}'] (by simp) []
    | cons x xs => simpa [setOps, loopOps] using whole (s := s) ['{'] ['}'] (by simp) (f x ++ loopOps f ['{'] [','] false xs)
  · exact whole [o] [c] (by simp) (itemsOps f e xs)
  · have := whole (s := s) ['('] [')'] (by simp) (g p.1 ++ .put [','] :: f p.2)
    simpa [pairOps] using this
  · cases xs with
    | nil => exact whole ['{'] [' ', '}'] (by simp) []
    | cons x xs =>
      have := whole (s := s) ['{', ' '] [' ', '}'] (by simp)
        (g x.1 ++ .put [':'] :: f x.2 ++ loopOps (fun x => g x.1 ++ .put [':'] :: f x.2) ['{', ' '] [',', ' '] false xs)
      simpa [mapOps, loopOps] using this
  · cases w with
    | nil =>
      have := C141_iff_partial (s := s) (l := wordOps []) (t := ['e']) (r := []) rfl
      simpa using this
    | cons b w =>
      have := C141_iff_partial (s := s) (l := wordOps (b :: w)) (t := boolText false b) (r := texts false (w.map .bool ++ [.alpha true])) rfl
      rw [this]
      have hb : (boolText false b).length = 1 := by cases b <;> rfl
      rw [hb]
      cases w with
      | nil => simp [texts]
      | cons c w => cases c <;> simp [texts, boolText]

/-- C141 is false: a vector with a width that exceeds the opening bracket is never padded as a whole. -/
theorem C141_refuted (s : Out) (hw : 2 ≤ s.width) (f : T → List Op) (xs : List T) :
    (act s (vectorOps f xs)).out ≠ s.out ++ pad s.left s.width s.fill (texts s.boolalpha (vectorOps f xs)) := by
  intro h
  have := ((C141_containers (K := Unit) s (fun _ => []) f).1 xs).1 h
  omega

/-- **C141**: without `std::left`, these are the streams of `Stream/Model.lean`. -/
theorem C141_right : ∀ (l : List Op) (s : Out), s.left = false →
    runO ⟨s.out, s.boolalpha, s.width, s.fill, false⟩ l = ⟨(act s l).out, (act s l).boolalpha, (act s l).width, s.fill, false⟩
  | [], s, _ => rfl
  | .put t :: l, s, h => by
    have := C141_right l (s.put t) h
    simp only [runO, List.foldl_cons, runO1, act_cons, act1] at this ⊢
    refine Eq.trans ?_ this
    congr 1
    simp [OStream.put, Out.put, pad, h]
  | .bool b :: l, s, h => by
    have := C141_right l (s.put (boolText s.boolalpha b)) h
    simp only [runO, List.foldl_cons, runO1, act_cons, act1] at this ⊢
    refine Eq.trans ?_ this
    congr 1
    cases hb : s.boolalpha <;> cases b <;> simp [OStream.putBool, OStream.put, Out.put, pad, h, hb, boolText]
  | .alpha b :: l, s, h => C141_right l { s with boolalpha := b } h
  | .raise :: l, s, h => C141_right l s h

/-! ## Reading back -/

/-- What `os << i` does. -/
def intOps (i : Int) : List Op := [.put (OStream.intText i)]

theorem texts_loop (a : Bool) (xs : List Int) (m : List Op) : texts a (loopOps intOps ['['] [','] false xs ++ m) =
    (xs.map fun i => ',' :: OStream.intText i).flatten ++ texts a m := by
  induction xs with
  | nil => rfl
  | cons x xs ih => simp [loopOps, intOps, texts, ih]

theorem sep_flat (t : List Char) (ts : List (List Char)) : sepText [','] (t :: ts) = t ++ (ts.map fun u => ',' :: u).flatten := by
  induction ts generalizing t with
  | nil => simp [sepText]
  | cons u ts ih => rw [sepText, ih]; simp

theorem vector_first (a : Bool) (xs : List Int) : first a (vectorOps intOps xs) = some (['['], sepText [','] (xs.map OStream.intText) ++ [']']) := by
  cases xs with
  | nil => rfl
  | cons x xs =>
    have := texts_loop a xs [.put [']']]
    simp only [vectorOps, loopOps, if_true, List.cons_append, first, List.isEmpty_cons, Bool.false_eq_true, if_false, List.append_nil, List.append_assoc]
    simp only [intOps, List.cons_append, List.nil_append, texts] at this ⊢
    rw [this, List.map_cons, sep_flat]
    simp [Function.comp_def]

/-- Blanks after the opening bracket change nothing. -/
theorem sequence_inner {lo hi : Int} {u v : List Char} (hu : Blank u) {xs : List Int} {rest : List Char}
    (h : Sequence (IntItem lo hi) '[' ']' ',' ('[' :: v) xs rest) : Sequence (IntItem lo hi) '[' ']' ',' ('[' :: (u ++ v)) xs rest := by
  obtain ⟨b, body, hb, hinp, hcase⟩ := h
  cases b with
  | cons c b =>
    have := hb c (by simp)
    simp only [List.cons_append, List.cons.injEq] at hinp
    rw [← hinp.1] at this
    exact absurd this (by decide)
  | nil =>
    simp only [List.nil_append, List.cons.injEq, true_and] at hinp
    subst hinp
    refine ⟨[], u ++ v, blank_nil, rfl, ?_⟩
    have app : ∀ {b' : List Char}, Blank b' → Blank (u ++ b') := fun hb' c hc => (List.mem_append.1 hc).elim (hu c) (hb' c)
    rcases hcase with ⟨rfl, b', hb', rfl⟩ | ⟨hns, hit⟩
    · exact .inl ⟨rfl, u ++ b', app hb', by simp⟩
    · right
      rcases blank_or_split v with hbb | ⟨b', y, r, hb', hy, rfl⟩
      · exfalso
        have : ∃ x r1 d, isSpace d = false ∧ IntItem lo hi v x r1 ∧ d ∈ r1 := by
          cases hit with
          | last h hb => exact ⟨_, _, ']', by decide, h, by simp⟩
          | more h hb _ => exact ⟨_, _, ',', by decide, h, by simp⟩
        obtain ⟨x, r1, d, hd, ⟨b, sign, ds, _, _, _, _, _, he, _⟩, hdr⟩ := this
        have := hbb d (by rw [he]; simp [hdr])
        rw [hd] at this
        cases this
      · have hR := reads_int lo hi 0
        refine ⟨?_, ?_⟩
        · rw [← List.append_assoc]
          apply not_startsWith (app hb') (by decide) hy
          rintro rfl
          exact hns ⟨b', r, hb', rfl⟩
        · rw [← List.append_assoc, items_blanks hR (app hb') hy]
          rwa [items_blanks hR hb' hy] at hit

/-- **C141**: with a blank fill character, a vector of integers is read back, wherever the padding is. -/
theorem C141_vector_back {lo hi : Int} (xs : List Int) (h : ∀ y ∈ xs, lo ≤ y ∧ y ≤ hi) (s : Out) (ho : s.out = []) (hf : isSpace s.fill = true)
    (v : List Int) (x0 : Int) (following : List Char) (fuel : Nat) (hfuel : xs.length < fuel) :
    ∃ s', readVector fuel (fun s => s.readInt lo hi x0) (.ofList ((act s (vectorOps intOps xs)).out ++ following)) v = some (.ok (xs, s')) ∧
      s'.rest = following ∧ s'.good = true := by
  have hp : (IStream.ofList ((act s (vectorOps intOps xs)).out ++ following)).Plain := ⟨rfl, rfl, rfl, rfl⟩
  have hblank : ∀ n, Blank (List.replicate n s.fill) := fun n c hc => by rw [List.eq_of_mem_replicate hc]; exact hf
  have hseq : Sequence (IntItem lo hi) '[' ']' ',' ((act s (vectorOps intOps xs)).out ++ following) xs following := by
    rw [(C141_first (vector_first s.boolalpha xs)).1, ho]
    have h0 := sequence_ints (lo := lo) (hi := hi) (opening := '[') (closing := ']') (sep := ',') (by decide) (by decide) (by decide) (by decide) following xs h
    cases hl : s.left with
    | true =>
      have := sequence_inner (hblank (s.width - 1)) (v := sepText [','] (xs.map OStream.intText) ++ [']'] ++ following) (by simpa using h0)
      simpa [pad] using this
    | false =>
      obtain ⟨b, body, hb, he, hc⟩ := h0
      refine ⟨List.replicate (s.width - 1) s.fill ++ b, body, ?_, ?_, hc⟩
      · exact fun c hc => (List.mem_append.1 hc).elim (hblank _ c) (hb c)
      · rw [List.append_assoc (List.replicate _ _), ← he]; simp [pad]
  obtain ⟨t, _, hr⟩ := readSequence_ok (reads_int lo hi x0) (by decide) (by decide) (by decide) (by decide) hp trivial v xs hseq fuel hfuel
  exact ⟨_, hr, rfl, (IStream.adv_plain hp _ _).good⟩

theorem texts_bits (w : BinWord.Word) : texts false (w.map .bool ++ [.alpha true]) = BinWord.bitsText w := by
  induction w with
  | nil => rfl
  | cons b w ih =>
    have : texts false ((b :: w).map .bool ++ [.alpha true]) = boolText false b ++ texts false (w.map .bool ++ [.alpha true]) := rfl
    rw [this, ih]
    cases b <;> rfl

theorem word_first (a b : Bool) (w : BinWord.Word) : first a (wordOps (b :: w)) = some ([if b then '1' else '0'], BinWord.bitsText w) := by
  have : first a (wordOps (b :: w)) = some (boolText false b, texts false (w.map .bool ++ [.alpha true])) := rfl
  rw [this, texts_bits]
  cases b <;> rfl

theorem bit_bits (w : BinWord.Word) : ∀ c ∈ BinWord.bitsText w, BinWord.IsBit c := by
  induction w with
  | nil => intro c hc; simp [BinWord.bitsText] at hc
  | cons b w ih =>
    intro c hc
    have he : BinWord.bitsText (b :: w) = (if b then '1' else '0') :: BinWord.bitsText w := rfl
    rw [he, List.mem_cons] at hc
    rcases hc with rfl | hc
    · cases b <;> simp [BinWord.IsBit]
    · exact ih c hc

theorem bits_back (w : BinWord.Word) : (BinWord.bitsText w).map BinWord.bitOf = w := by
  induction w with
  | nil => rfl
  | cons b w ih =>
    have he : BinWord.bitsText (b :: w) = (if b then '1' else '0') :: BinWord.bitsText w := rfl
    rw [he, List.map_cons, ih]
    cases b <;> rfl

/-- **C141**: a word that is written with a width, a blank fill character and without `std::left` is read back. -/
theorem C141_word_right (w : BinWord.Word) (hw : w ≠ []) (s : Out) (ho : s.out = []) (hf : isSpace s.fill = true) (hl : s.left = false)
    (fuel : Nat) (hfuel : w.length < fuel) : BinWord.ofString fuel (act s (wordOps w)).out = some (.ok w) := by
  cases w with
  | nil => exact absurd rfl hw
  | cons b w =>
    rw [(C141_first (word_first s.boolalpha b w)).1, ho, hl]
    have hs : (IStream.ofList (List.replicate (s.width - 1) s.fill ++ BinWord.bitsText (b :: w))).Plain := ⟨rfl, rfl, rfl, rfl⟩
    have := BinWord.readWord_bits hs (b := List.replicate (s.width - 1) s.fill) (ds := BinWord.bitsText (b :: w)) (tail := [])
      (fun c hc => by rw [List.eq_of_mem_replicate hc]; exact hf) (bit_bits _) (by simp [IStream.ofList]) (by simp) (.inl (by cases b <;> simp [BinWord.bitsText]))
      [] fuel (by simpa [BinWord.bitsText] using hfuel)
    have ht : ([] : List Char) ++ pad false s.width s.fill [if b then '1' else '0'] ++ BinWord.bitsText w =
        List.replicate (s.width - 1) s.fill ++ BinWord.bitsText (b :: w) := by
      have he : BinWord.bitsText (b :: w) = (if b then '1' else '0') :: BinWord.bitsText w := rfl
      rw [he]; simp [pad]
    rw [ht]
    simp only [BinWord.ofString, BinWord.makeBinaryWord, this, bits_back]

/-- C141 is false for words with `std::left`: the padding comes after the first letter, which is all that is read back. -/
theorem C141_word_left_refuted (b : Bool) (w : BinWord.Word) (s : Out) (ho : s.out = []) (hf : ¬ BinWord.IsBit s.fill) (hl : s.left = true)
    (hw : 2 ≤ s.width) (fuel : Nat) (hfuel : 2 ≤ fuel) : BinWord.ofString fuel (act s (wordOps (b :: w))).out = some (.ok [b]) := by
  rw [(C141_first (word_first s.boolalpha b w)).1, ho, hl]
  obtain ⟨k, hk⟩ : ∃ k, s.width - 1 = k + 1 := ⟨s.width - 2, by omega⟩
  have ht : ([] : List Char) ++ pad true s.width s.fill [if b then '1' else '0'] ++ BinWord.bitsText w =
      [if b then '1' else '0'] ++ s.fill :: (List.replicate k s.fill ++ BinWord.bitsText w) := by
    simp [pad, hk, List.replicate_succ]
  rw [ht]
  have hs : (IStream.ofList ([if b then '1' else '0'] ++ s.fill :: (List.replicate k s.fill ++ BinWord.bitsText w))).Plain := ⟨rfl, rfl, rfl, rfl⟩
  have := BinWord.readWord_bits hs (b := []) (ds := [if b then '1' else '0']) (tail := s.fill :: (List.replicate k s.fill ++ BinWord.bitsText w))
    blank_nil (by cases b <;> simp [BinWord.IsBit]) (by simp [IStream.ofList])
    (fun y t h => by simp only [List.cons.injEq] at h; rw [← h.1]; exact hf) (.inl (by simp)) [] fuel (by simp; omega)
  simp only [BinWord.ofString, BinWord.makeBinaryWord, this]
  cases b <;> rfl

/-- C141 is false for words with the fill character `0` (or `1`), which becomes part of the word. -/
theorem C141_word_fill_refuted (b : Bool) (w : BinWord.Word) (s : Out) (ho : s.out = []) (hf : s.fill = '0') (hl : s.left = false)
    (fuel : Nat) (hfuel : s.width + w.length + 1 < fuel) :
    BinWord.ofString fuel (act s (wordOps (b :: w))).out = some (.ok (List.replicate (s.width - 1) false ++ b :: w)) := by
  rw [(C141_first (word_first s.boolalpha b w)).1, ho, hl, hf]
  have he : BinWord.bitsText (List.replicate (s.width - 1) false ++ b :: w) = List.replicate (s.width - 1) '0' ++ ((if b then '1' else '0') :: BinWord.bitsText w) := by
    simp [BinWord.bitsText]
  have hs : (IStream.ofList (BinWord.bitsText (List.replicate (s.width - 1) false ++ b :: w))).Plain := ⟨rfl, rfl, rfl, rfl⟩
  have := BinWord.readWord_bits hs (b := []) (ds := BinWord.bitsText (List.replicate (s.width - 1) false ++ b :: w)) (tail := [])
    blank_nil (bit_bits _) (by simp [IStream.ofList]) (by simp) (.inl (by rw [he]; simp)) [] fuel (by rw [he]; simp [BinWord.bitsText]; omega)
  have ht : ([] : List Char) ++ pad false s.width '0' [if b then '1' else '0'] ++ BinWord.bitsText w =
      BinWord.bitsText (List.replicate (s.width - 1) false ++ b :: w) := by
    rw [he]; simp [pad]
  rw [ht]
  simp only [BinWord.ofString, BinWord.makeBinaryWord, this, bits_back]

/-- `os << std::setw(4) << std::left` and vectors, maps and words. -/
def wide (left : Bool) : Out := ⟨[], false, 4, '.', left⟩

example : (act (wide true) (vectorOps intOps [1, 2])).out = "[...1,2]".toList ∧ (act (wide false) (vectorOps intOps [1, 2])).out = "...[1,2]".toList ∧
    (act (wide true) (mapOps intOps intOps [(1, 2)])).out = "{ ..1:2 }".toList ∧ (act (wide true) (wordOps [true, false])).out = "1...0".toList ∧
    pad true 12 '.' "[1,2]".toList = "[1,2].......".toList := by decide +kernel

example : 2 ≤ (wide true).width ∧ ¬ BinWord.IsBit (wide true).fill := by
  refine ⟨by decide, ?_⟩
  rintro (h | h) <;> exact absurd h (by decide)

end Helper.Seq.Adjust
