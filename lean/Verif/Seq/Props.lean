import Verif.Seq.Digits
/-!
# C18–C22, C69: sequence writers and readers
-/
set_option linter.unusedSectionVars false
namespace Helper.Seq
open OStream

variable {T : Type u} {K : Type v}

/-- The item type's `operator<<`, on a stream in good state and without a pending width, appends
the text `txt x` and changes nothing else. -/
def Writes (wr : OStream → T → OStream) (txt : T → List Char) : Prop :=
  ∀ os x, os.failed = false → os.width = 0 → wr os x = { os with out := os.out ++ txt x }

/-- `os` after the texts have been written one after the other: a pending width pads the first. -/
def written (os : OStream) (first : List Char) (more : List Char) : OStream :=
  { os with out := os.out ++ List.replicate (os.width - first.length) os.fill ++ first ++ more, width := 0 }

theorem writes_int : Writes OStream.putInt intText := by
  intro os x hf hw; simp [putInt, put, hf, hw]

theorem writes_string : Writes putString id := by
  intro os x hf hw; simp [putString, put, hf, hw]

theorem put_good {os : OStream} (hf : os.failed = false) (t : List Char) :
    os.put t = written os t [] := by simp [put, written, hf]

theorem put_width0 {os : OStream} (hf : os.failed = false) (hw : os.width = 0) (t : List Char) :
    os.put t = { os with out := os.out ++ t } := by simp [put, hf, hw]

theorem writeItems_text {wr : OStream → T → OStream} {txt : T → List Char} (h : Writes wr txt)
    (sep : Char) (xs : List T) : ∀ os : OStream, os.failed = false → os.width = 0 →
    writeItems wr sep os xs = { os with out := os.out ++ sepText [sep] (xs.map txt) } := by
  induction xs with
  | nil => intro os _ _; simp [writeItems, sepText]
  | cons x t ih =>
    intro os hf hw
    cases t with
    | nil => simp [writeItems, sepText, h os x hf hw]
    | cons y t =>
      rw [writeItems]
      simp only [h os x hf hw, putChar]
      rw [put_width0 (by exact hf) (by exact hw), ih _ (by exact hf) (by exact hw)]
      simp [sepText]

/-- C18: `write_sequence` writes opening, the items in order with the separator between consecutive
items only, closing; nothing else of the stream changes (a pending width is used up by opening). -/
theorem C18_writeSequence {wr : OStream → T → OStream} {txt : T → List Char} (h : Writes wr txt)
    (os : OStream) (hf : os.failed = false) (xs : List T) (opening closing sep : Char) :
    writeSequence wr os xs opening closing sep =
      written os [opening] (sepText [sep] (xs.map txt) ++ [closing]) := by
  unfold writeSequence
  simp only [putChar]
  rw [put_good hf, writeItems_text h sep xs (written os [opening] []) hf rfl,
    put_width0 (by exact hf) rfl]
  simp [written]

example : (writeSequence putInt fresh [3, -14, 15] '<' '>' ';').out = "<3;-14;15>".toList := by
  rw [C18_writeSequence writes_int fresh rfl]
  simp [written, fresh, sepText, intText, digits]

theorem writePointerItems_text {wr : OStream → T → OStream} {txt : T → List Char} (h : Writes wr txt)
    (sep : Char) (xs : List T) : ∀ os : OStream,
    writePointerItems wr sep os (xs.map some) = .ok (writeItems wr sep os xs) := by
  induction xs with
  | nil => intro os; simp [writePointerItems, writeItems]
  | cons x t ih =>
    intro os
    cases t with
    | nil => simp [writePointerItems, writeItems]
    | cons y t =>
      have := ih ((wr os x).putChar sep)
      simp only [List.map_cons] at this ⊢
      rw [writePointerItems, writeItems]
      exact this

theorem writePointerItems_null {wr : OStream → T → OStream} (sep : Char) (xs : List (Option T))
    (hn : none ∈ xs) : ∀ os : OStream, writePointerItems wr sep os xs = .ub .nullDeref := by
  induction xs with
  | nil => simp at hn
  | cons x t ih =>
    intro os
    cases x with
    | none => rw [writePointerItems]
    | some x =>
      have ht : none ∈ t := by simpa using hn
      cases t with
      | nil => simp at ht
      | cons y t => rw [writePointerItems]; exact ih ht _

/-- C18: `write_pointer_sequence` writes what `write_sequence` writes for the items pointed at. -/
theorem C18_writePointerSequence {wr : OStream → T → OStream} {txt : T → List Char}
    (h : Writes wr txt) (os : OStream) (hf : os.failed = false) (xs : List T)
    (opening closing sep : Char) :
    writePointerSequence wr os (xs.map some) opening closing sep =
      .ok (written os [opening] (sepText [sep] (xs.map txt) ++ [closing])) := by
  have h2 := C18_writeSequence h os hf xs opening closing sep
  unfold writeSequence at h2
  simp [writePointerSequence, writePointerItems_text h, h2]

/-- C18: a null pointer anywhere in the sequence is dereferenced. -/
theorem C18_writePointerSequence_null (wr : OStream → T → OStream) (os : OStream)
    (xs : List (Option T)) (hn : none ∈ xs) (opening closing sep : Char) :
    writePointerSequence wr os xs opening closing sep = .ub .nullDeref := by
  simp [writePointerSequence, writePointerItems_null sep xs hn]

example : writePointerSequence putInt fresh [some 1, none] '[' ']' ',' = .ub .nullDeref := by decide

theorem printLoop_false {wr : OStream → T → OStream} {txt : T → List Char} (h : Writes wr txt)
    (o sep : List Char) (xs : List T) : ∀ os : OStream, os.failed = false → os.width = 0 →
    printLoop wr o sep false os xs =
      (false, { os with out := os.out ++ (xs.map fun x => sep ++ txt x).flatten }) := by
  induction xs with
  | nil => intro os _ _; simp [printLoop]
  | cons x t ih =>
    intro os hf hw
    rw [printLoop, put_width0 hf hw, h _ _ (by exact hf) (by exact hw), ih _ (by exact hf) (by exact hw)]
    simp

theorem sepText_cons (sep : List Char) (t : List Char) (ts : List (List Char)) :
    sepText sep (t :: ts) = t ++ (ts.map (sep ++ ·)).flatten := by
  induction ts generalizing t with
  | nil => simp [sepText]
  | cons u us ih => simp [sepText, ih u]

theorem printLoop_text {wr : OStream → T → OStream} {txt : T → List Char} (h : Writes wr txt)
    (o sep : List Char) (x : T) (xs : List T) (os : OStream) (hf : os.failed = false) :
    printLoop wr o sep true os (x :: xs) =
      (false, written os o (sepText sep ((x :: xs).map txt))) := by
  rw [printLoop]
  simp only [if_true]
  rw [put_good hf, h (written os o []) x hf rfl, printLoop_false h o sep xs _ (by exact hf) rfl,
    List.map_cons, sepText_cons]
  simp [written, Function.comp_def]

/-- C18: `operator<<` of `Array`, `SharedArray` and `std::vector` writes the same text as
`write_sequence` with `[ ]` and `,`. -/
theorem C18_printVector {wr : OStream → T → OStream} {txt : T → List Char} (h : Writes wr txt)
    (os : OStream) (hf : os.failed = false) (xs : List T) :
    printVector wr os xs = written os ['['] (sepText [','] (xs.map txt) ++ [']']) := by
  unfold printVector
  cases xs with
  | nil =>
    simp only [printLoop, if_true]
    rw [put_good hf, put_width0 (by exact hf) rfl]
    simp [written, sepText]
  | cons x xs =>
    rw [printLoop_text h _ _ x xs os hf]
    simp only [Bool.false_eq_true, if_false]
    rw [put_width0 (by exact hf) rfl]
    simp [written]

/-- C18: `operator<<` of `std::set` writes the same text with `{ }`. -/
theorem C18_printSet {wr : OStream → T → OStream} {txt : T → List Char} (h : Writes wr txt)
    (os : OStream) (hf : os.failed = false) (xs : List T) :
    printSet wr os xs = written os ['{'] (sepText [','] (xs.map txt) ++ ['}']) := by
  unfold printSet
  cases xs with
  | nil =>
    simp only [printLoop, if_true]
    rw [put_good hf, put_width0 (by exact hf) rfl]
    simp [written, sepText]
  | cons x xs =>
    rw [printLoop_text h _ _ x xs os hf]
    simp only [Bool.false_eq_true, if_false]
    rw [put_width0 (by exact hf) rfl]
    simp [written]

/-- C18: `operator<<` of `std::list`. -/
theorem C18_printList {wr : OStream → T → OStream} {txt : T → List Char} (h : Writes wr txt)
    (os : OStream) (hf : os.failed = false) (xs : List T) :
    printList wr os xs = written os ['['] (sepText [','] (xs.map txt) ++ [']']) :=
  C18_writeSequence h os hf xs _ _ _

example : (printVector putInt fresh [7]).out = "[7]".toList ∧ (printVector putInt fresh []).out = "[]".toList
    ∧ (printSet putInt fresh []).out = "{}".toList := by
  refine ⟨?_, by decide, by decide⟩
  rw [C18_printVector writes_int fresh rfl]
  simp [written, fresh, sepText, intText, digits]

/-! ## C22: maps, pairs, tuples -/

/-- Text of a map item. -/
def entryText (tk : K → List Char) (txt : T → List Char) (desc : List Char) (x : K × T) : List Char :=
  tk x.1 ++ desc ++ txt x.2

theorem writeMapItems_eq (wk : OStream → K → OStream) (wr : OStream → T → OStream) (sep desc : Char)
    (xs : List (K × T)) : ∀ os : OStream,
    writeMapItems wk wr sep desc os xs =
      writeItems (fun os (x : K × T) => wr ((wk os x.1).putChar desc) x.2) sep os xs := by
  induction xs with
  | nil => intro os; simp [writeMapItems, writeItems]
  | cons x t ih =>
    intro os
    cases t with
    | nil => simp [writeMapItems, writeItems]
    | cons y t =>
      rw [writeMapItems, writeItems]
      exact ih _

theorem writes_entry {wk : OStream → K → OStream} {wr : OStream → T → OStream} {tk : K → List Char}
    {txt : T → List Char} (hk : Writes wk tk) (h : Writes wr txt) (desc : List Char) :
    Writes (fun os (x : K × T) => wr ((wk os x.1).put desc) x.2) (entryText tk txt desc) := by
  intro os x hf hw
  simp only
  rw [hk os x.1 hf hw, put_width0 (by exact hf) (by exact hw), h _ _ (by exact hf) (by exact hw)]
  simp [entryText]

/-- C22: `write_map_sequence` (and `write_coefficient_map_sequence`) write opening, `key descriptor
value` items separated by the separator, closing. -/
theorem C22_writeMapSequence {wk : OStream → K → OStream} {wr : OStream → T → OStream}
    {tk : K → List Char} {txt : T → List Char} (hk : Writes wk tk) (h : Writes wr txt)
    (os : OStream) (hf : os.failed = false) (xs : List (K × T)) (opening closing sep desc : Char) :
    writeMapSequence wk wr os xs opening closing sep desc =
      written os [opening] (sepText [sep] (xs.map (entryText tk txt [desc])) ++ [closing]) ∧
    writeCoefficientMapSequence wk wr os xs opening closing sep desc =
      written os [opening] (sepText [sep] (xs.map (entryText tk txt [desc])) ++ [closing]) := by
  have := C18_writeSequence (writes_entry hk h [desc]) os hf xs opening closing sep
  unfold writeSequence at this
  unfold writeMapSequence writeCoefficientMapSequence
  rw [writeMapItems_eq]
  exact ⟨this, this⟩

example : (writeMapSequence putInt putInt fresh [(1, 2), (3, -4)] '{' '}' ',' ':').out
    = "{1:2,3:-4}".toList := by
  rw [(C22_writeMapSequence writes_int writes_int fresh rfl _ _ _ _ _).1]
  simp [written, fresh, sepText, entryText, intText, digits]

theorem writeMapPointerItems_text (wk : OStream → K → OStream) (wr : OStream → T → OStream)
    (sep desc : Char) (xs : List (K × T)) : ∀ os : OStream,
    writeMapPointerItems wk wr sep desc os (xs.map fun x => (x.1, some x.2)) =
      .ok (writeMapItems wk wr sep desc os xs) := by
  induction xs with
  | nil => intro os; simp [writeMapPointerItems, writeMapItems]
  | cons x t ih =>
    intro os
    cases t with
    | nil => simp [writeMapPointerItems, writeMapItems]
    | cons y t =>
      have := ih ((wr ((wk os x.1).putChar desc) x.2).putChar sep)
      simp only [List.map_cons] at this ⊢
      rw [writeMapPointerItems, writeMapItems]
      exact this

theorem writeMapPointerItems_null (wk : OStream → K → OStream) (wr : OStream → T → OStream)
    (sep desc : Char) (xs : List (K × Option T)) (hn : none ∈ xs.map (·.2)) : ∀ os : OStream,
    writeMapPointerItems wk wr sep desc os xs = .ub .nullDeref := by
  induction xs with
  | nil => simp at hn
  | cons x t ih =>
    intro os
    obtain ⟨k, v⟩ := x
    cases v with
    | none => rw [writeMapPointerItems]
    | some v =>
      have ht : none ∈ t.map (·.2) := by simpa using hn
      cases t with
      | nil => simp at ht
      | cons y t => rw [writeMapPointerItems]; exact ih ht _

/-- C22: `write_map_pointer_sequence` writes the values pointed at, and dereferences null pointers. -/
theorem C22_writeMapPointerSequence {wk : OStream → K → OStream} {wr : OStream → T → OStream}
    {tk : K → List Char} {txt : T → List Char} (hk : Writes wk tk) (h : Writes wr txt)
    (os : OStream) (hf : os.failed = false) (opening closing sep desc : Char) :
    (∀ xs : List (K × T),
      writeMapPointerSequence wk wr os (xs.map fun x => (x.1, some x.2)) opening closing sep desc =
        .ok (written os [opening] (sepText [sep] (xs.map (entryText tk txt [desc])) ++ [closing]))) ∧
    (∀ xs : List (K × Option T), none ∈ xs.map (·.2) →
      writeMapPointerSequence wk wr os xs opening closing sep desc = .ub .nullDeref) := by
  refine ⟨fun xs => ?_, fun xs hn => ?_⟩
  · have := (C22_writeMapSequence hk h os hf xs opening closing sep desc).1
    unfold writeMapSequence at this
    simp [writeMapPointerSequence, writeMapPointerItems_text, this]
  · simp [writeMapPointerSequence, writeMapPointerItems_null wk wr sep desc xs hn]

/-- C22: `operator<<` of `std::map` writes `{ k:v, k:v }`. (An empty map is written `{ }`.) -/
theorem C22_printMap {wk : OStream → K → OStream} {wr : OStream → T → OStream}
    {tk : K → List Char} {txt : T → List Char} (hk : Writes wk tk) (h : Writes wr txt)
    (os : OStream) (hf : os.failed = false) :
    (∀ xs : List (K × T), xs ≠ [] → printMap wk wr os xs =
      written os ['{', ' '] (sepText [',', ' '] (xs.map (entryText tk txt [':'])) ++ [' ', '}'])) ∧
    printMap wk wr os [] = written os ['{'] [' ', '}'] := by
  refine ⟨fun xs hne => ?_, ?_⟩
  · obtain ⟨x, xs, rfl⟩ := List.exists_cons_of_ne_nil hne
    unfold printMap
    rw [printLoop_text (writes_entry hk h [':']) _ _ x xs os hf]
    simp only [Bool.false_eq_true, if_false]
    rw [put_width0 (by exact hf) rfl]
    simp [written]
  · unfold printMap
    simp only [printLoop, if_true]
    rw [put_good hf, put_width0 (by exact hf) rfl]
    simp [written]

example : (printMap putInt putInt fresh [(1, 2), (3, 4)]).out = "{ 1:2, 3:4 }".toList := by
  rw [(C22_printMap writes_int writes_int fresh rfl).1 _ (by simp)]
  simp [written, fresh, sepText, entryText, intText, digits]

/-- C22: pairs. -/
theorem C22_printPair {wk : OStream → K → OStream} {wr : OStream → T → OStream}
    {tk : K → List Char} {txt : T → List Char} (hk : Writes wk tk) (h : Writes wr txt)
    (os : OStream) (hf : os.failed = false) (p : K × T) :
    printPair wk wr os p = written os ['('] (sepText [','] [tk p.1, txt p.2] ++ [')']) := by
  unfold printPair
  simp only [putChar]
  rw [put_good hf, hk (written os ['('] []) p.1 hf rfl]
  rw [put_width0 (os := { written os ['('] [] with out := (written os ['('] []).out ++ tk p.1 })
    (by exact hf) rfl]
  rw [h _ _ (by exact hf) rfl, put_width0 (by exact hf) rfl]
  simp [written, sepText]

/-- A component of a tuple writes the text `t`. -/
def WritesOne (w : OStream → OStream) (t : List Char) : Prop :=
  ∀ os, os.failed = false → os.width = 0 → w os = { os with out := os.out ++ t }

theorem sepText_snoc (sep : List Char) (ts : List (List Char)) (hne : ts ≠ []) (t : List Char) :
    sepText sep (ts ++ [t]) = sepText sep ts ++ sep ++ t := by
  obtain ⟨u, us, rfl⟩ := List.exists_cons_of_ne_nil hne
  rw [List.cons_append, sepText_cons, sepText_cons]
  simp

theorem writeTuple_text (tup : List (OStream → OStream)) (ts : List (List Char))
    (hl : tup.length = ts.length)
    (h : ∀ i (h : i < tup.length), WritesOne tup[i] (ts[i]'(hl ▸ h))) (os : OStream)
    (hf : os.failed = false) (hw : os.width = 0) :
    ∀ n, n < tup.length → writeTuple tup (n + 1) os =
      some { os with out := os.out ++ sepText [','] (ts.take (n + 1)) } := by
  intro n
  induction n with
  | zero =>
    intro hn
    have h0 := h 0 hn os hf hw
    cases ts with
    | nil => simp at hl; simp [hl] at hn
    | cons t ts =>
      cases tup with
      | nil => simp at hn
      | cons w tup => simpa [writeTuple, sepText] using h0
  | succ n ih =>
    intro hn
    have hn' : n < tup.length := by omega
    rw [writeTuple, ih hn']
    simp only [putChar]
    rw [put_width0 (by exact hf) (by exact hw), List.getElem?_eq_getElem hn]
    simp only [Option.map_some]
    rw [h (n + 1) hn _ (by exact hf) (by exact hw)]
    have hnt : n + 1 < ts.length := hl ▸ hn
    have : ts.take (n + 1 + 1) = ts.take (n + 1) ++ [ts[n + 1]] := List.take_succ_eq_append_getElem hnt
    rw [this, sepText_snoc]
    · simp
    · intro he
      have := congrArg List.length he
      rw [List.length_take, List.length_nil] at this
      omega

/-- C22: tuples of any arity (≥ 1; `std::tuple<>` does not compile). -/
theorem C22_printTuple_partial (tup : List (OStream → OStream)) (ts : List (List Char)) (hne : tup ≠ [])
    (hl : tup.length = ts.length)
    (h : ∀ i (h : i < tup.length), WritesOne tup[i] (ts[i]'(hl ▸ h))) (os : OStream)
    (hf : os.failed = false) :
    printTuple tup os = some (written os ['('] (sepText [','] ts ++ [')'])) := by
  have hpos : 0 < tup.length := List.length_pos_iff.2 hne
  unfold printTuple
  obtain ⟨n, hn⟩ : ∃ n, tup.length = n + 1 := ⟨tup.length - 1, by omega⟩
  rw [put_good hf, hn, writeTuple_text tup ts hl h (written os ['('] []) hf rfl n (by omega)]
  simp only [Option.map_some]
  rw [put_width0 (by exact hf) rfl, List.take_of_length_le (by omega)]
  simp [written]

example : (printTuple [fun os => os.putBool true, fun os => os.put ['x'], fun os => os.putChar 'y']
    fresh).map (·.out) = some "(1,x,y)".toList := by decide

/-- C22 is false for `std::tuple<>`: printing it does not compile. -/
theorem C22_refuted (os : OStream) : printTuple [] os = none := rfl

/-! ## C19–C21: reading -/

/-- C20: on every input with a non-blank character `read_sequence` terminates; it returns normally
exactly when the input starts with a sequence, with the items of that sequence, leaving what
follows unread and the stream good; otherwise it throws `std::ios_base::failure`. Stated for every
item type whose `operator>>` reads a grammar (`Reads`), every delimiters that are not blanks with
closing different from opening and separator, every previous contents of the container. -/
theorem C20_readSequence {ok : IStream → Prop} {rd : IStream → T × IStream} {Item : ItemGrammar T}
    (R : Reads ok rd Item) {opening closing sep : Char} (ho : isSpace opening = false)
    (hc : isSpace closing = false) (hsp : isSpace sep = false) (hcs : sep ≠ closing)
    (hoc : opening ≠ closing) {s : IStream} (hs : s.Plain) (hok : ok s) (v : List T)
    (hnb : ¬ Blank s.rest) :
    ∃ res, (∀ fuel, s.rest.length + 2 ≤ fuel →
        readSequence fuel rd s v opening closing sep = some res) ∧
      ((∃ xs s', res = .ok (xs, s') ∧ s'.good = true ∧
          Sequence Item opening closing sep s.rest xs s'.rest) ∨
       (res = .exn .iosFailure ∧ ∀ xs rest, ¬ Sequence Item opening closing sep s.rest xs rest)) := by
  rcases readSequence_total R ho hc hsp hcs hoc hs hok v hnb _ (Nat.le_refl _) with
    ⟨xs, rest, t, hsq, ht, _⟩ | ⟨hno, _⟩
  · refine ⟨.ok (xs, s.adv t rest), fun fuel hfuel => ?_, .inl ⟨xs, _, rfl, (IStream.adv_plain hs _ _).good, hsq⟩⟩
    rcases readSequence_total R ho hc hsp hcs hoc hs hok v hnb fuel hfuel with
      ⟨xs', rest', t', hsq', ht', hrun⟩ | ⟨hno, _⟩
    · -- the two runs agree: the sequence determines the result
      obtain ⟨f0, hf0⟩ : ∃ f0, xs.length < f0 ∧ xs'.length < f0 :=
        ⟨xs.length + xs'.length + 1, by omega, by omega⟩
      obtain ⟨t1, ht1, h1⟩ := readSequence_ok R ho hc hsp hcs hs hok v xs hsq f0 hf0.1
      obtain ⟨t2, ht2, h2⟩ := readSequence_ok R ho hc hsp hcs hs hok v xs' hsq' f0 hf0.2
      rw [h1] at h2
      simp only [Option.some.injEq, Res.ok.injEq, Prod.mk.injEq] at h2
      obtain ⟨hxs, hadv⟩ := h2
      have hr : rest = rest' := congrArg IStream.rest hadv
      rw [hrun, hxs, hr]
      have : t' = t := List.append_cancel_right (by rw [← ht', ht, hr])
      rw [this]
    · exact absurd hsq (hno _ _)
  · refine ⟨.exn .iosFailure, fun fuel hfuel => ?_, .inr ⟨rfl, hno⟩⟩
    rcases readSequence_total R ho hc hsp hcs hoc hs hok v hnb fuel hfuel with
      ⟨xs', rest', t', hsq', _, _⟩ | ⟨_, h⟩
    · exact absurd hsq' (hno _ _)
    · exact h

/-- C20: the sequence at the start of an input is unique, so the items are "exactly those". -/
theorem C20_unique {ok : IStream → Prop} {rd : IStream → T × IStream} {Item : ItemGrammar T}
    (R : Reads ok rd Item) {opening closing sep : Char} (ho : isSpace opening = false)
    (hc : isSpace closing = false) (hsp : isSpace sep = false) (hcs : sep ≠ closing)
    {s : IStream} (hs : s.Plain) (hok : ok s) {xs xs' : List T} {r r' : List Char}
    (h : Sequence Item opening closing sep s.rest xs r)
    (h' : Sequence Item opening closing sep s.rest xs' r') : xs = xs' ∧ r = r' := by
  obtain ⟨t1, _, h1⟩ := readSequence_ok R ho hc hsp hcs hs hok [] xs h (xs.length + xs'.length + 1) (by omega)
  obtain ⟨t2, _, h2⟩ := readSequence_ok R ho hc hsp hcs hs hok [] xs' h' (xs.length + xs'.length + 1) (by omega)
  rw [h1] at h2
  simp only [Option.some.injEq, Res.ok.injEq, Prod.mk.injEq] at h2
  exact ⟨h2.1, congrArg IStream.rest h2.2⟩

/-- C20 for `operator>>` of `std::vector<int>`-like types. -/
theorem C20_readVector_int (lo hi x0 : Int) {s : IStream} (hs : s.Plain) (v : List Int)
    (hnb : ¬ Blank s.rest) :
    ∃ res, (∀ fuel, s.rest.length + 2 ≤ fuel →
        readVector fuel (fun s => s.readInt lo hi x0) s v = some res) ∧
      ((∃ xs s', res = .ok (xs, s') ∧ s'.good = true ∧
          Sequence (IntItem lo hi) '[' ']' ',' s.rest xs s'.rest) ∨
       (res = .exn .iosFailure ∧
          ∀ xs rest, ¬ Sequence (IntItem lo hi) '[' ']' ',' s.rest xs rest)) :=
  C20_readSequence (reads_int lo hi x0) (by decide) (by decide) (by decide) (by decide) (by decide)
    hs trivial v hnb

example : readVector 20 (fun s => s.readInt (-128) 127 0) (.ofList " [ 1 ,-2,+3]x".toList) [9]
    = some (.ok ([1, -2, 3], ⟨" [ 1 ,-2,+3]".toList.reverse, ['x'], false, false, false, false, true⟩)) := by
  decide
example : readVector 20 (fun s => s.readInt (-128) 127 0) (.ofList "[1,200]".toList) []
    = some (.exn .iosFailure) := by decide
example : readVector 20 (fun s => s.readInt (-128) 127 0) (.ofList "[1,2".toList) []
    = some (.exn .iosFailure) := by decide
example : readVector 20 (fun s => s.readInt (-128) 127 0) (.ofList "[1;2]".toList) []
    = some (.exn .iosFailure) := by decide

/-- C19: reading back the text written by `write_sequence` for integers of the element type, with
the same delimiters, gives the written sequence, whatever the container held before, and leaves the
following text unread. The delimiters are not blanks, digits or `-`, and separator ≠ closing. -/
theorem C19_roundTrip {lo hi : Int} {opening closing sep : Char} (ho : isSpace opening = false)
    (hc : isSpace closing = false) (hsp : isSpace sep = false)
    (hcd : ¬ ('0' ≤ closing ∧ closing ≤ '9')) (hcm : closing ≠ '-') (hsd : ¬ ('0' ≤ sep ∧ sep ≤ '9'))
    (hcs : sep ≠ closing) (xs : List Int) (h : ∀ y ∈ xs, lo ≤ y ∧ y ≤ hi) (v : List Int) (x0 : Int)
    (following : List Char) (fuel : Nat) (hfuel : xs.length < fuel) :
    ∃ s', readSequence fuel (fun s => s.readInt lo hi x0)
        (.ofList ((writeSequence putInt fresh xs opening closing sep).out ++ following)) v
        opening closing sep = some (.ok (xs, s')) ∧ s'.rest = following ∧ s'.good = true := by
  rw [C18_writeSequence writes_int fresh rfl]
  have hp : (IStream.ofList ((written fresh [opening] (sepText [sep] (xs.map intText) ++ [closing])).out
      ++ following)).Plain := ⟨rfl, rfl, rfl, rfl⟩
  obtain ⟨t, _, hr⟩ := readSequence_ok (reads_int lo hi x0) ho hc hsp hcs hp trivial v xs
    (rest := following) (opening := opening) (by
      have := sequence_ints (opening := opening) hc hcd hcm hsd following xs h
      simpa [IStream.ofList, written, fresh] using this) fuel hfuel
  exact ⟨_, hr, rfl, (IStream.adv_plain hp _ _).good⟩

/-- C19 through `operator<<` and `operator>>` of `std::vector`. -/
theorem C19_vector {lo hi : Int} (xs : List Int) (h : ∀ y ∈ xs, lo ≤ y ∧ y ≤ hi) (v : List Int)
    (x0 : Int) (following : List Char) (fuel : Nat) (hfuel : xs.length < fuel) :
    ∃ s', readVector fuel (fun s => s.readInt lo hi x0)
        (.ofList ((printVector putInt fresh xs).out ++ following)) v = some (.ok (xs, s')) ∧
      s'.rest = following ∧ s'.good = true := by
  rw [C18_printVector writes_int fresh rfl, ← C18_writeSequence writes_int fresh rfl]
  exact C19_roundTrip (by decide) (by decide) (by decide) (by decide) (by decide) (by decide)
    (by decide) xs h v x0 following fuel hfuel

example : ∀ y ∈ [(-128 : Int), 0, 127], -128 ≤ y ∧ y ≤ 127 := by decide

/-- C19: the condition separator ≠ closing is needed. -/
theorem C19_sameDelimiters :
    ∃ s', readSequence 20 (fun s => s.readInt (-128) 127 0) (.ofList "[1|2|".toList) [] '[' '|' '|'
      = some (.ok ([], s')) := ⟨_, rfl⟩

/-- C21: on an input without a non-blank character `read_sequence` compares the uninitialised
variable `c` (stlio.hpp:152, 157-158): undefined behaviour instead of the promised exception. -/
theorem C21_blankInput_refuted (fuel : Nat) (rd : IStream → T × IStream) (v : List T)
    (opening closing sep : Char) {s : IStream} (hs : s.Plain) (hb : Blank s.rest) :
    readSequence fuel rd s v opening closing sep = some (.ub .indeterminate) := by
  simp [readSequence, IStream.readChar_blank hs hb]

/-- The same on a stream that is already at its end or failed. -/
theorem C21_notGood_refuted (fuel : Nat) (rd : IStream → T × IStream) (v : List T)
    (opening closing sep : Char) {s : IStream} (hs : s.good = false) :
    readSequence fuel rd s v opening closing sep = some (.ub .indeterminate) := by
  simp [readSequence, IStream.readChar_notGood hs]

example : Blank " \n".toList ∧ (IStream.ofList " \n".toList).Plain :=
  ⟨by unfold Blank; decide, ⟨rfl, rfl, rfl, rfl⟩⟩

/-- C21, what holds: as soon as there is a non-blank character no indeterminate value is used. (The
full claim, that blank input throws, is false.) -/
theorem C21_noIndeterminate_partial {ok : IStream → Prop} {rd : IStream → T × IStream}
    {Item : ItemGrammar T} (R : Reads ok rd Item) {opening closing sep : Char}
    (ho : isSpace opening = false) (hc : isSpace closing = false) (hsp : isSpace sep = false)
    (hcs : sep ≠ closing) (hoc : opening ≠ closing) {s : IStream} (hs : s.Plain) (hok : ok s)
    (v : List T) (fuel : Nat) (hfuel : s.rest.length + 2 ≤ fuel) :
    readSequence fuel rd s v opening closing sep = some (.ub .indeterminate) ↔ Blank s.rest := by
  constructor
  · intro h
    rcases blank_or_split s.rest with hb | ⟨b, y, r, hb, hy, hr⟩
    · exact hb
    · have hnb : ¬ Blank s.rest := by rw [hr]; exact not_blank_split hy
      rcases readSequence_total R ho hc hsp hcs hoc hs hok v hnb fuel hfuel with
        ⟨_, _, _, _, _, h'⟩ | ⟨_, h'⟩ <;> rw [h] at h' <;> simp at h'
  · exact fun hb => C21_blankInput_refuted fuel rd v opening closing sep hs hb

/-! ## C69: to_string -/

/-- C69: `to_string` and `to_str` give the text that `os << t` writes to a fresh stream. -/
theorem C69_text {wr : OStream → T → OStream} {txt : T → List Char} (h : Writes wr txt) (t : T) :
    toString wr t = txt t ∧ toStr wr t = txt t := by
  have : toString wr t = txt t := by
    unfold toString; rw [h fresh t rfl rfl]; simp [fresh]
  exact ⟨this, this⟩

/-- C69: identity on strings. -/
theorem C69_string (s : List Char) : toString putString s = s := (C69_text writes_string s).1

/-- C69: injective on integers. -/
theorem C69_int_injective {x y : Int} (h : toString putInt x = toString putInt y) : x = y := by
  rw [(C69_text writes_int x).1, (C69_text writes_int y).1] at h
  exact intText_injective h

/-- C69: and the text is the decimal numeral, with a minus sign for negative numbers. -/
theorem C69_int_numeral (x : Int) :
    ∃ ds, toString putInt x = (if x < 0 then ['-'] else []) ++ ds ∧ (∀ c ∈ ds, '0' ≤ c ∧ c ≤ '9') ∧
      (numeral ds : Int) = x.natAbs ∧ ds ≠ [] ∧ (∀ r, ds = '0' :: r → r = []) := by
  rw [(C69_text writes_int x).1]
  refine ⟨digits x.natAbs, ?_, (digits_spec _).2, by rw [(digits_spec _).1], digits_ne_nil _, ?_⟩
  · unfold intText; split <;> simp
  · generalize x.natAbs = n
    induction n using Nat.strongRecOn with
    | _ n ih =>
      intro r hr
      rw [digits] at hr
      split at hr
      · simp at hr; exact hr.2
      · rename_i hn
        cases hd : digits (n / 10) with
        | nil => exact absurd hd (digits_ne_nil _)
        | cons c t =>
          rw [hd] at hr
          simp at hr
          have := ih (n / 10) (by omega) t (by rw [hd, hr.1])
          subst this
          rw [hr.1] at hd
          have h2 := (digits_spec (n / 10)).1
          rw [hd] at h2
          have : numeral ['0'] = 0 := by decide
          omega

example : toString putInt (-305) = "-305".toList := by
  rw [(C69_text writes_int _).1]; simp [intText, digits]

end Helper.Seq
