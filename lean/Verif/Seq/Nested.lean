import Verif.Seq.Props
import Verif.BinWord.IO
set_option linter.unusedSectionVars false
/-!
# Property C82: writing and reading vectors of vectors and of words

`read_sequence` (stlio.hpp:144-190) for items whose own `operator>>` may throw or be undefined, as those of `std::vector` and
`BinaryWord` are, and vectors nested to any depth.
-/
namespace Helper.Seq
open IStream OStream

variable {T L : Type}

/-- stlio.hpp:169-182, the loop of `read_sequence`, as `readLoop`; `rd` may throw. -/
def readLoopX (rd : IStream → Option (Res (T × IStream))) (closing separator : Char) :
    Nat → Char → List T → IStream → Option (Res (List T × IStream))
  | 0, _, _, _ => none
  | fuel + 1, c, v, is =>
    if c ≠ closing then
      if is.eof then some (.exn .iosFailure)
      else if c ≠ separator then some (.exn .iosFailure)
      else
        match rd is with
        | none => none
        | some (.exn e) => some (.exn e)
        | some (.ub k) => some (.ub k)
        | some .abort => some .abort
        | some (.ok r) =>
          if r.2.failed then some (.exn .iosFailure)
          else
            let r' := r.2.readChar (some c)
            match r'.1 with
            | none => some (.ub .indeterminate)
            | some c' => readLoopX rd closing separator fuel c' (v ++ [r.1]) r'.2
    else some (.ok (v, is))

/-- stlio.hpp:144-190 `read_sequence`, as `readSequence`. -/
def readSequenceX (fuel : Nat) (rd : IStream → Option (Res (T × IStream))) (is : IStream)
    (opening closing separator : Char) : Option (Res (List T × IStream)) :=
  let r := is.readChar none
  match r.1 with
  | none => some (.ub .indeterminate)
  | some c =>
    if c ≠ opening then some (.exn .iosFailure)
    else
      let r := r.2.readChar (some c)
      match r.1 with
      | none => some (.ub .indeterminate)
      | some c =>
        if c ≠ closing then readLoopX rd closing separator fuel separator [] (r.2.putback c)
        else readLoopX rd closing separator fuel c [] r.2

/-- Vectors nested `d` deep with leaves in `L`. -/
abbrev Nest (L : Type) : Nat → Type
  | 0 => L
  | d + 1 => List (Nest L d)

/-- `operator>>` (stlio.hpp:278-283) of a nested vector. The vector that an item is read into still holds the previous item; it
is cleared first (line 154), so the previous contents are left out here. -/
def readNest (fuel : Nat) (rd : IStream → Option (Res (L × IStream))) : (d : Nat) → IStream → Option (Res (Nest L d × IStream))
  | 0, is => rd is
  | d + 1, is => readSequenceX fuel (readNest fuel rd d) is '[' ']' ','

/-- `operator<<` (container.hpp:127-135) of a nested vector. -/
def printNest (wr : OStream → L → OStream) : (d : Nat) → OStream → Nest L d → OStream
  | 0, os, x => wr os x
  | d + 1, os, x => printVector (printNest wr d) os x

/-! Specification -/

/-- Text of a nested vector. -/
def nestText (txt : L → List Char) : (d : Nat) → Nest L d → List Char
  | 0, x => txt x
  | d + 1, x => '[' :: (sepText [','] (x.map (nestText txt d)) ++ [']'])

/-- The leaves, in order. -/
def leaves : (d : Nat) → Nest L d → List L
  | 0, x => [x]
  | d + 1, x => (x.map (leaves d)).flatten

/-! ## The reader with items that do not throw is the one of C20 -/

theorem readLoopX_pure (rd : IStream → T × IStream) (closing sep : Char) : ∀ (fuel : Nat) (c : Char) (v : List T) (s : IStream),
    readLoopX (fun s => some (.ok (rd s))) closing sep fuel c v s = readLoop rd closing sep fuel c v s := by
  intro fuel
  induction fuel with
  | zero => intro c v s; rfl
  | succ fuel ih =>
    intro c v s
    rw [readLoopX, readLoop]
    simp only [ih]
    cases ((rd s).2.readChar (some c)).1 <;> rfl

theorem C82_same (rd : IStream → T × IStream) (fuel : Nat) (s : IStream) (v : List T) (opening closing sep : Char) :
    readSequenceX fuel (fun s => some (.ok (rd s))) s opening closing sep = readSequence fuel rd s v opening closing sep := by
  simp only [readSequenceX, readSequence, readLoopX_pure]
  cases (s.readChar none).1 with
  | none => rfl
  | some c => cases h : ((s.readChar none).2.readChar (some c)).1 <;> simp only [h, List.drop_length]

/-! ## Writing -/

/-- An item's `operator<<` writes its text; other format flags may change. -/
def WritesText (wr : OStream → T → OStream) (txt : T → List Char) : Prop :=
  ∀ os x, os.failed = false → os.width = 0 →
    (wr os x).out = os.out ++ txt x ∧ (wr os x).failed = false ∧ (wr os x).width = 0

theorem put_text {os : OStream} (hf : os.failed = false) (hw : os.width = 0) (t : List Char) :
    (os.put t).out = os.out ++ t ∧ (os.put t).failed = false ∧ (os.put t).width = 0 := by
  rw [put_width0 hf hw]
  exact ⟨rfl, hf, hw⟩

theorem printLoop_writes {wr : OStream → T → OStream} {txt : T → List Char} (h : WritesText wr txt) (o sep : List Char) :
    ∀ (xs : List T) (first : Bool) (os : OStream), os.failed = false → os.width = 0 →
    let r := printLoop wr o sep first os xs
    r.1 = (first && xs.isEmpty) ∧ r.2.failed = false ∧ r.2.width = 0 ∧
    r.2.out = os.out ++ (if xs.isEmpty then [] else (if first then o else sep) ++ sepText sep (xs.map txt)) := by
  intro xs
  induction xs with
  | nil => intro first os hf hw; simp [printLoop, hf, hw]
  | cons x xs ih =>
    intro first os hf hw
    obtain ⟨a1, a2, a3⟩ := put_text hf hw (if first then o else sep)
    obtain ⟨b1, b2, b3⟩ := h _ x a2 a3
    obtain ⟨c1, c2, c3, c4⟩ := ih false _ b2 b3
    refine ⟨by simpa [printLoop] using c1, c2, c3, ?_⟩
    simp only [printLoop, c4, b1, a1]
    cases xs with
    | nil => simp [sepText]
    | cons y ys => simp [sepText]

theorem writes_nest {wr : OStream → L → OStream} {txt : L → List Char} (h : WritesText wr txt) :
    ∀ d, WritesText (printNest wr d) (nestText txt d) := by
  intro d
  induction d with
  | zero => exact h
  | succ d ih =>
    intro os x hf hw
    have hl := printLoop_writes ih ['['] [','] x true os hf hw
    simp only at hl
    obtain ⟨h1, h2, h3, h4⟩ := hl
    show (printVector (printNest wr d) os x).out = _ ∧ _
    simp only [printNest, printVector, h1, Bool.true_and]
    cases x with
    | nil =>
      simp only [List.isEmpty_nil, if_true, List.append_nil] at h4 ⊢
      obtain ⟨a1, a2, a3⟩ := put_text h2 h3 ['[']
      obtain ⟨b1, b2, b3⟩ := put_text a2 a3 [']']
      refine ⟨?_, b2, b3⟩
      rw [b1, a1, h4]
      simp [nestText, sepText]
    | cons y ys =>
      simp only [List.isEmpty_cons, Bool.false_eq_true, if_false, if_true] at h4 ⊢
      obtain ⟨b1, b2, b3⟩ := put_text h2 h3 [']']
      refine ⟨?_, b2, b3⟩
      rw [b1, h4]
      simp [nestText]

/-! ## Reading -/

/-- Followed by a delimiter, the text `t` is read as `x` and consumed. -/
def ReadsAs (rd : IStream → Option (Res (T × IStream))) (t : List Char) (x : T) : Prop :=
  ∀ (s : IStream) (d : Char) (r : List Char), s.Plain → (d = ',' ∨ d = ']') → s.rest = t ++ d :: r →
    rd s = some (.ok (x, s.adv t (d :: r)))

/-- Followed by a delimiter, reading the text throws, or stops at a character that is no delimiter. -/
def Sticks (rd : IStream → Option (Res (T × IStream))) (t : List Char) : Prop :=
  ∀ (s : IStream) (d : Char) (r : List Char), s.Plain → (d = ',' ∨ d = ']') → s.rest = t ++ d :: r →
    rd s = some (.exn .iosFailure) ∨
      ∃ y c r', rd s = some (.ok (y, s.adv [] (c :: r'))) ∧ isSpace c = false ∧ c ≠ ',' ∧ c ≠ ']'

/-- Begins with a character that is neither blank nor a closing bracket. -/
def Begins (t : List Char) : Prop := ∃ c r, t = c :: r ∧ isSpace c = false ∧ c ≠ ']'

/-- The loop of `read_sequence` on the texts of `x :: xs`, where the text of `y` is read as `val y`. -/
theorem loopX_vals {A : Type} {rd : IStream → Option (Res (T × IStream))} {txt : A → List Char} {val : A → T} : ∀ (x : A) (xs : List A),
    (∀ y ∈ x :: xs, ReadsAs rd (txt y) (val y)) → ∀ (fuel : Nat) (v : List T) (s : IStream) (rest : List Char), xs.length + 2 ≤ fuel → s.Plain →
    s.rest = sepText [','] ((x :: xs).map txt) ++ ']' :: rest →
    readLoopX rd ']' ',' fuel ',' v s = some (.ok (v ++ (x :: xs).map val, s.adv (sepText [','] ((x :: xs).map txt) ++ [']']) rest)) := by
  intro x xs
  induction xs generalizing x with
  | nil =>
    intro hx fuel v s rest hf hs hr
    obtain ⟨fuel, rfl⟩ : ∃ k, fuel = k + 2 := ⟨fuel - 2, by simp at hf; omega⟩
    simp only [List.map_cons, List.map_nil, sepText] at hr ⊢
    have h1 := hx x (List.mem_cons_self) s ']' rest hs (.inr rfl) hr
    have hp := adv_plain hs (txt x) (']' :: rest)
    have h2 := readChar_split hp (b := []) (x := ']') (r := rest) blank_nil (by decide) rfl (some ',')
    have hnf : (s.adv (txt x) (']' :: rest)).failed = false := by simp only [IStream.failed, hp.fail, hp.bad, Bool.or_self]
    rw [adv_adv] at h2
    simp only [readLoopX, h1, hs.eof, hnf, h2]
    simp
  | cons z zs ih =>
    intro hx fuel v s rest hf hs hr
    obtain ⟨fuel, rfl⟩ : ∃ k, fuel = k + 1 := ⟨fuel - 1, by simp at hf; omega⟩
    simp only [List.map_cons, sepText] at hr ⊢
    have hr' : s.rest = txt x ++ ',' :: (sepText [','] ((z :: zs).map txt) ++ ']' :: rest) := by simpa using hr
    have h1 := hx x (List.mem_cons_self) s ',' _ hs (.inl rfl) hr'
    have hp := adv_plain hs (txt x) (',' :: (sepText [','] ((z :: zs).map txt) ++ ']' :: rest))
    have h2 := readChar_split hp (b := []) (x := ',') blank_nil (by decide) rfl (some ',')
    have hnf : (s.adv (txt x) (',' :: (sepText [','] ((z :: zs).map txt) ++ ']' :: rest))).failed = false := by
      simp only [IStream.failed, hp.fail, hp.bad, Bool.or_self]
    rw [adv_adv] at h2
    have h3 := ih z (fun y hy => hx y (List.mem_cons_of_mem _ hy)) fuel (v ++ [val x])
      (s.adv (txt x ++ ([] ++ [','])) (sepText [','] ((z :: zs).map txt) ++ ']' :: rest)) rest (by simp at hf; omega)
      (adv_plain hs _ _) rfl
    rw [adv_adv] at h3
    rw [readLoopX]
    simp only [h1, hs.eof, hnf, h2, h3]
    simp

theorem loopX_good {rd : IStream → Option (Res (T × IStream))} {txt : T → List Char} (x : T) (xs : List T)
    (h : ∀ y ∈ x :: xs, ReadsAs rd (txt y) y) (fuel : Nat) (v : List T) (s : IStream) (rest : List Char) (hf : xs.length + 2 ≤ fuel) (hs : s.Plain)
    (hr : s.rest = sepText [','] ((x :: xs).map txt) ++ ']' :: rest) :
    readLoopX rd ']' ',' fuel ',' v s = some (.ok (v ++ x :: xs, s.adv (sepText [','] ((x :: xs).map txt) ++ [']']) rest)) := by
  have := loopX_vals (val := id) x xs h fuel v s rest hf hs hr
  rwa [List.map_id] at this

theorem loopX_bad {rd : IStream → Option (Res (T × IStream))} {txt : T → List Char} : ∀ (xs : List T) (b : T) (ys : List T),
    (∀ y ∈ xs, ReadsAs rd (txt y) y) → Sticks rd (txt b) → ∀ (fuel : Nat) (v : List T) (s : IStream) (rest : List Char),
    xs.length + 2 ≤ fuel → s.Plain → s.rest = sepText [','] ((xs ++ b :: ys).map txt) ++ ']' :: rest →
    readLoopX rd ']' ',' fuel ',' v s = some (.exn .iosFailure) := by
  intro xs
  induction xs with
  | nil =>
    intro b ys _ hb fuel v s rest hf hs hr
    obtain ⟨fuel, rfl⟩ : ∃ k, fuel = k + 2 := ⟨fuel - 2, by simp at hf; omega⟩
    obtain ⟨d, r, hd, hr'⟩ : ∃ d r, (d = ',' ∨ d = ']') ∧ s.rest = txt b ++ d :: r := by
      cases ys with
      | nil => exact ⟨']', rest, .inr rfl, by simpa [sepText] using hr⟩
      | cons y ys => exact ⟨',', sepText [','] ((y :: ys).map txt) ++ ']' :: rest, .inl rfl, by simpa [sepText] using hr⟩
    rcases hb s d r hs hd hr' with h | ⟨y, c, r', h, hc1, hc2, hc3⟩
    · simp [readLoopX, h, hs.eof]
    · have hp := adv_plain hs [] (c :: r')
      have h2 := readChar_split hp (b := []) (x := c) (r := r') blank_nil hc1 rfl (some ',')
      have hnf : (s.adv [] (c :: r')).failed = false := by simp only [IStream.failed, hp.fail, hp.bad, Bool.or_self]
      rw [adv_adv] at h2
      have he : (s.adv ([] ++ ([] ++ [c])) r').eof = false := hs.eof
      simp only [readLoopX, h, hs.eof, hnf, h2, he]
      simp [hc2, hc3]
  | cons x xs ih =>
    intro b ys hx hb fuel v s rest hf hs hr
    obtain ⟨fuel, rfl⟩ : ∃ k, fuel = k + 1 := ⟨fuel - 1, by simp at hf; omega⟩
    obtain ⟨z, zs, hz⟩ : ∃ z zs, xs ++ b :: ys = z :: zs := by
      cases xs with
      | nil => exact ⟨b, ys, rfl⟩
      | cons z zs => exact ⟨z, zs ++ b :: ys, rfl⟩
    have hr' : s.rest = txt x ++ ',' :: (sepText [','] ((xs ++ b :: ys).map txt) ++ ']' :: rest) := by
      rw [List.cons_append, hz] at hr
      rw [hz]
      simpa [sepText] using hr
    have h1 := hx x (List.mem_cons_self) s ',' _ hs (.inl rfl) hr'
    have hp := adv_plain hs (txt x) (',' :: (sepText [','] ((xs ++ b :: ys).map txt) ++ ']' :: rest))
    have h2 := readChar_split hp (b := []) (x := ',') blank_nil (by decide) rfl (some ',')
    have hnf : (s.adv (txt x) (',' :: (sepText [','] ((xs ++ b :: ys).map txt) ++ ']' :: rest))).failed = false := by
      simp only [IStream.failed, hp.fail, hp.bad, Bool.or_self]
    rw [adv_adv] at h2
    have h3 := ih b ys (fun y hy => hx y (List.mem_cons_of_mem _ hy)) hb fuel (v ++ [x])
      (s.adv (txt x ++ ([] ++ [','])) (sepText [','] ((xs ++ b :: ys).map txt) ++ ']' :: rest)) rest (by simp at hf; omega)
      (adv_plain hs _ _) rfl
    rw [readLoopX]
    simp only [h1, hs.eof, hnf, h2, h3]
    simp

/-- C82: whatever the reader of an item does other than return, the reader of the list does: it does not end, throws, is undefined or
terminates the program. -/
theorem C82_item {rd : IStream → Option (Res (T × IStream))} {closing sep : Char} (hcs : sep ≠ closing) {s : IStream}
    (he : s.eof = false) (fuel : Nat) (v : List T) :
    (rd s = none → readLoopX rd closing sep (fuel + 1) sep v s = none) ∧
    (∀ e, rd s = some (.exn e) → readLoopX rd closing sep (fuel + 1) sep v s = some (.exn e)) ∧
    (∀ u, rd s = some (.ub u) → readLoopX rd closing sep (fuel + 1) sep v s = some (.ub u)) ∧
    (rd s = some .abort → readLoopX rd closing sep (fuel + 1) sep v s = some .abort) := by
  refine ⟨fun h => ?_, fun e h => ?_, fun u h => ?_, fun h => ?_⟩ <;> (rw [readLoopX]; simp [hcs, he, h])

example : readLoopX (fun _ => (some (.ub .indeterminate) : Option (Res (Int × IStream)))) ']' ',' 1 ',' [] (.ofList ['1']) =
    some (.ub .indeterminate) := rfl

/-- The beginning of `read_sequence` on a non-empty list. -/
theorem sequenceX_start {rd : IStream → Option (Res (T × IStream))} {s : IStream} (hs : s.Plain) {t rest : List Char} (ht : Begins t)
    (hr : s.rest = '[' :: (t ++ rest)) (fuel : Nat) :
    readSequenceX fuel rd s '[' ']' ',' = readLoopX rd ']' ',' fuel ',' [] (s.adv ['['] (t ++ rest)) := by
  obtain ⟨c, r, rfl, hc1, hc2⟩ := ht
  have h1 := readChar_split hs (b := []) (x := '[') blank_nil (by decide) hr none
  have hp1 := adv_plain hs ['['] (c :: (r ++ rest))
  have h2 := readChar_split hp1 (b := []) (x := c) (r := r ++ rest) blank_nil hc1 rfl (some '[')
  have h3 := putback_adv hp1 [] c (r ++ rest)
  simp only [List.nil_append, List.cons_append, adv_adv] at h1 h2 h3 ⊢
  simp only [readSequenceX, h1, h2, h3]
  simp [hc2]

theorem begins_sep {ts : List (List Char)} {t : List Char} (ht : Begins t) : Begins (sepText [','] (t :: ts)) := by
  obtain ⟨c, r, rfl, h⟩ := ht
  obtain ⟨u, hu⟩ := sepText_head [','] (c :: r) ts
  exact ⟨c, r ++ u, hu, h⟩

theorem begins_nest {txt : L → List Char} (h : ∀ x, Begins (txt x)) : ∀ d x, Begins (nestText txt d x) := by
  intro d
  cases d with
  | zero => exact h
  | succ d => intro x; exact ⟨'[', _, rfl, by decide, by decide⟩

/-- A nested vector whose leaves are read back is read back, whatever follows. -/
theorem nest_reads {rd : Nat → IStream → Option (Res (L × IStream))} {txt : L → List Char} (hb : ∀ x, Begins (txt x)) :
    ∀ (d : Nat) (x : Nest L (d + 1)), (∀ y ∈ leaves (d + 1) x, ∃ n, ∀ fuel, n ≤ fuel → ReadsAs (rd fuel) (txt y) y) →
    ∃ n, ∀ fuel, n ≤ fuel → ∀ (s : IStream) (rest : List Char), s.Plain → s.rest = nestText txt (d + 1) x ++ rest →
      readNest fuel (rd fuel) (d + 1) s = some (.ok (x, s.adv (nestText txt (d + 1) x) rest)) := by
  have list : ∀ (d : Nat), (∀ x : Nest L d, (∀ y ∈ leaves d x, ∃ n, ∀ fuel, n ≤ fuel → ReadsAs (rd fuel) (txt y) y) →
        ∃ n, ∀ fuel, n ≤ fuel → ReadsAs (readNest fuel (rd fuel) d) (nestText txt d x) x) →
      ∀ x : Nest L (d + 1), (∀ y ∈ leaves (d + 1) x, ∃ n, ∀ fuel, n ≤ fuel → ReadsAs (rd fuel) (txt y) y) →
      ∃ n, ∀ fuel, n ≤ fuel → ∀ (s : IStream) (rest : List Char), s.Plain → s.rest = nestText txt (d + 1) x ++ rest →
        readNest fuel (rd fuel) (d + 1) s = some (.ok (x, s.adv (nestText txt (d + 1) x) rest)) := by
    intro d hd x hx
    have hall : ∀ xs : List (Nest L d), (∀ z ∈ xs, z ∈ x) →
        ∃ n, ∀ fuel, n ≤ fuel → ∀ z ∈ xs, ReadsAs (readNest fuel (rd fuel) d) (nestText txt d z) z := by
      intro xs
      induction xs with
      | nil => intro _; exact ⟨0, fun _ _ z hz => by cases hz⟩
      | cons z zs ih =>
        intro hsub
        obtain ⟨n1, h1⟩ := ih fun w hw => hsub w (List.mem_cons_of_mem _ hw)
        obtain ⟨n2, h2⟩ := hd z fun y hy => hx y (List.mem_flatten.2 ⟨_, List.mem_map_of_mem (hsub z List.mem_cons_self), hy⟩)
        refine ⟨max n1 n2, fun fuel hf w hw => ?_⟩
        rcases List.mem_cons.1 hw with rfl | hw
        · exact h2 fuel (by omega)
        · exact h1 fuel (by omega) w hw
    obtain ⟨n, hn⟩ := hall x fun _ h => h
    refine ⟨n + x.length + 2, fun fuel hf s rest hs hr => ?_⟩
    cases x with
    | nil =>
      have hr' : s.rest = '[' :: ']' :: rest := by simpa [nestText, sepText] using hr
      have h1 := readChar_split hs (b := []) (x := '[') blank_nil (by decide) hr' none
      have hp1 := adv_plain hs ['['] (']' :: rest)
      have h2 := readChar_split hp1 (b := []) (x := ']') (r := rest) blank_nil (by decide) rfl (some '[')
      simp only [List.nil_append, adv_adv] at h1 h2
      obtain ⟨fuel, rfl⟩ : ∃ k, fuel = k + 1 := ⟨fuel - 1, by omega⟩
      simp [readNest, readSequenceX, h1, h2, readLoopX, nestText, sepText]
    | cons z zs =>
      have hr' : s.rest = '[' :: (sepText [','] ((z :: zs).map (nestText txt d)) ++ (']' :: rest)) := by simpa [nestText] using hr
      have hb' : Begins (sepText [','] ((z :: zs).map (nestText txt d))) := begins_sep (begins_nest hb d z)
      have h1 := sequenceX_start (rd := readNest fuel (rd fuel) d) hs hb' hr' fuel
      have h2 := loopX_good z zs (hn fuel (by omega)) fuel [] (s.adv ['['] (sepText [','] ((z :: zs).map (nestText txt d)) ++ (']' :: rest))) rest
        (by simp at hf; omega) (adv_plain hs _ _) rfl
      rw [adv_adv] at h2
      show readSequenceX fuel (readNest fuel (rd fuel) d) s '[' ']' ',' = _
      rw [h1, h2]
      rfl
  have all : ∀ d (x : Nest L d), (∀ y ∈ leaves d x, ∃ n, ∀ fuel, n ≤ fuel → ReadsAs (rd fuel) (txt y) y) →
        ∃ n, ∀ fuel, n ≤ fuel → ReadsAs (readNest fuel (rd fuel) d) (nestText txt d x) x := by
    intro d
    induction d with
    | zero => intro x hx; exact hx x (by simp [leaves])
    | succ d ih =>
      intro x hx
      obtain ⟨n, hn⟩ := list d ih x hx
      exact ⟨n, fun fuel hf s c r hs _ hr => hn fuel hf s _ hs hr⟩
  exact fun d => list d (all d)

/-- A nested vector with a leaf whose text cannot be read fails to be read. -/
theorem nest_sticks {rd : Nat → IStream → Option (Res (L × IStream))} {txt : L → List Char} {G : L → Prop} (hb : ∀ x, Begins (txt x))
    (hg : ∀ y, G y → ∃ n, ∀ fuel, n ≤ fuel → ReadsAs (rd fuel) (txt y) y)
    (hg' : ∀ y, ¬ G y → ∃ n, ∀ fuel, n ≤ fuel → Sticks (rd fuel) (txt y)) :
    ∀ (d : Nat) (x : Nest L (d + 1)), (∃ y ∈ leaves (d + 1) x, ¬ G y) →
    ∃ n, ∀ fuel, n ≤ fuel → ∀ (s : IStream) (rest : List Char), s.Plain → s.rest = nestText txt (d + 1) x ++ rest →
      readNest fuel (rd fuel) (d + 1) s = some (.exn .iosFailure) := by
  have good : ∀ d (x : Nest L d), (∀ y ∈ leaves d x, G y) → ∃ n, ∀ fuel, n ≤ fuel → ReadsAs (readNest fuel (rd fuel) d) (nestText txt d x) x := by
    intro d x hx
    cases d with
    | zero => exact hg x (hx x (by simp [leaves]))
    | succ d =>
      obtain ⟨n, hn⟩ := nest_reads (rd := rd) hb d x fun y hy => hg y (hx y hy)
      exact ⟨n, fun fuel hf s c r hs _ hr => hn fuel hf s _ hs hr⟩
  have list : ∀ (d : Nat), (∀ x : Nest L d, (∃ y ∈ leaves d x, ¬ G y) →
        ∃ n, ∀ fuel, n ≤ fuel → Sticks (readNest fuel (rd fuel) d) (nestText txt d x)) →
      ∀ x : Nest L (d + 1), (∃ y ∈ leaves (d + 1) x, ¬ G y) →
      ∃ n, ∀ fuel, n ≤ fuel → ∀ (s : IStream) (rest : List Char), s.Plain → s.rest = nestText txt (d + 1) x ++ rest →
        readNest fuel (rd fuel) (d + 1) s = some (.exn .iosFailure) := by
    intro d hd x hx
    have hsplit : ∀ l : List (Nest L d), (∃ y ∈ (l.map (leaves d)).flatten, ¬ G y) →
        ∃ xs b ys, l = xs ++ b :: ys ∧ (∃ y ∈ leaves d b, ¬ G y) ∧
          ∃ n, ∀ fuel, n ≤ fuel → ∀ z ∈ xs, ReadsAs (readNest fuel (rd fuel) d) (nestText txt d z) z := by
      intro l
      induction l with
      | nil => rintro ⟨y, hy, _⟩; cases hy
      | cons z zs ih =>
        rintro ⟨y, hy, hny⟩
        by_cases hz : ∀ y ∈ leaves d z, G y
        · have : ∃ y ∈ (zs.map (leaves d)).flatten, ¬ G y := by
            rw [List.map_cons, List.flatten_cons, List.mem_append] at hy
            exact ⟨y, hy.resolve_left (fun h => hny (hz y h)), hny⟩
          obtain ⟨xs, b, ys, rfl, h2, n, h3⟩ := ih this
          obtain ⟨m, hm⟩ := good d z hz
          refine ⟨z :: xs, b, ys, rfl, h2, max m n, fun fuel hf w hw => ?_⟩
          rcases List.mem_cons.1 hw with rfl | hw
          · exact hm fuel (by omega)
          · exact h3 fuel (by omega) w hw
        · refine ⟨[], z, zs, rfl, ?_, 0, fun _ _ w hw => by cases hw⟩
          exact Classical.byContradiction fun h => hz fun y hy => Classical.byContradiction fun hG => h ⟨y, hy, hG⟩
    obtain ⟨xs, b, ys, rfl, hbad, n, hn⟩ := hsplit x hx
    obtain ⟨m, hm⟩ := hd b hbad
    refine ⟨n + m + xs.length + 2, fun fuel hf s rest hs hr => ?_⟩
    have hr' : s.rest = '[' :: (sepText [','] ((xs ++ b :: ys).map (nestText txt d)) ++ (']' :: rest)) := by simpa [nestText] using hr
    have hb' : Begins (sepText [','] ((xs ++ b :: ys).map (nestText txt d))) := by
      cases xs with
      | nil => exact begins_sep (begins_nest hb d b)
      | cons z zs => exact begins_sep (begins_nest hb d z)
    have h1 := sequenceX_start (rd := readNest fuel (rd fuel) d) hs hb' hr' fuel
    have h2 := loopX_bad xs b ys (hn fuel (by omega)) (hm fuel (by omega)) fuel []
      (s.adv ['['] (sepText [','] ((xs ++ b :: ys).map (nestText txt d)) ++ (']' :: rest))) rest (by omega) (adv_plain hs _ _) rfl
    show readSequenceX fuel (readNest fuel (rd fuel) d) s '[' ']' ',' = _
    rw [h1, h2]
  have all : ∀ d (x : Nest L d), (∃ y ∈ leaves d x, ¬ G y) →
        ∃ n, ∀ fuel, n ≤ fuel → Sticks (readNest fuel (rd fuel) d) (nestText txt d x) := by
    intro d
    induction d with
    | zero => rintro x ⟨y, hy, hny⟩; simp only [leaves, List.mem_singleton] at hy; exact hg' x (hy ▸ hny)
    | succ d ih =>
      intro x hx
      obtain ⟨n, hn⟩ := list d ih x hx
      exact ⟨n, fun fuel hf s c r hs _ hr => .inl (hn fuel hf s _ hs hr)⟩
  exact fun d => list d (all d)

/-! ## Leaves -/

/-- `operator>>` of an integral type. -/
def readLeafInt (lo hi : Int) (s : IStream) : Option (Res (Int × IStream)) := some (.ok (s.readInt lo hi 0))

theorem readsAs_int {lo hi x : Int} (h1 : lo ≤ x) (h2 : x ≤ hi) : ReadsAs (readLeafInt lo hi) (intText x) x := by
  intro s d r hs hd hr
  have hdig : ¬ ('0' ≤ d ∧ d ≤ '9') := by rcases hd with rfl | rfl <;> decide
  have hit : IntItem lo hi s.rest x (d :: r) := by
    rw [hr]; exact intItem_intText h1 h2 (fun c t h => by injection h with h _; exact h ▸ hdig)
  obtain ⟨t, ht, he⟩ := (reads_int lo hi 0).reads hs trivial hit
  have : t = intText x := List.append_cancel_right (ht.symm.trans hr)
  subst this
  show some (Res.ok (s.readInt lo hi 0)) = _
  rw [he]
  simp [adv, hs.eof]

theorem begins_int (x : Int) : Begins (intText x) := by
  obtain ⟨c, r, h, hc⟩ := intText_head x
  refine ⟨c, r, h, ?_, ?_⟩
  · rcases hc with hc | rfl
    · exact isDigit_not_space (isDigit_iff.2 hc)
    · decide
  · rintro rfl
    rcases hc with hc | hc
    · exact absurd hc (by decide)
    · exact absurd hc (by decide)

open BinWord in
theorem begins_word (w : Word) : Begins (wordText w) := by
  cases w with
  | nil => exact ⟨'e', [], rfl, by decide, by decide⟩
  | cons b t => cases b <;> exact ⟨_, _, rfl, by decide, by decide⟩

open BinWord in
theorem readsAs_word (w : Word) (hw : w ≠ []) : ∃ n, ∀ fuel, n ≤ fuel → ReadsAs (fun s => readWord fuel s []) (wordText w) w := by
  refine ⟨w.length + 1, fun fuel hf s d r hs hd hr => ?_⟩
  have he : wordText w = bitsText w := by simp [wordText, hw]
  rw [he] at hr ⊢
  have h := readWord_bits hs (b := []) (ds := bitsText w) (tail := d :: r) blank_nil (bitsText_isBit w) (by simpa using hr)
    (fun y t h => by injection h with h _; subst h; rcases hd with rfl | rfl <;> simp [IsBit])
    (.inl (by simp [bitsText, hw])) [] fuel (by simp [bitsText]; omega)
  rw [bitsText_bitOf, after_cons hs] at h
  exact h

open BinWord in
theorem sticks_word : ∃ n, ∀ fuel, n ≤ fuel → Sticks (fun s => readWord fuel s []) (wordText []) := by
  refine ⟨1, fun fuel hf s d r hs hd hr => .inr ⟨[], 'e', d :: r, ?_, by decide, by decide, by decide⟩⟩
  have h := readWord_bits hs (b := []) (ds := []) (tail := 'e' :: d :: r) blank_nil (by simp) (by simpa [wordText] using hr)
    (fun y t h => by injection h with h _; subst h; simp [IsBit]) (.inr ⟨'e', _, rfl, by decide, by decide⟩) [] fuel (by simp; omega)
  rw [after_cons hs] at h
  exact h

/-! ## C82 -/

theorem plain_ofList (t : List Char) : (IStream.ofList t).Plain := ⟨rfl, rfl, rfl, rfl⟩

/-- C82: a vector of integers nested to any depth, written to a stream and read back, gives the same value and consumes
exactly what was written. -/
theorem C82_ints (lo hi : Int) (d : Nat) (x : Nest Int (d + 1)) (hx : ∀ i ∈ leaves (d + 1) x, lo ≤ i ∧ i ≤ hi) :
    ∃ n, ∀ fuel, n ≤ fuel → ∀ rest, ∃ s, readNest fuel (readLeafInt lo hi) (d + 1)
        (IStream.ofList ((printNest OStream.putInt (d + 1) .fresh x).out ++ rest)) = some (.ok (x, s)) ∧
      s.rest = rest ∧ s.good = true := by
  have hw : WritesText OStream.putInt intText := fun os x hf hw => put_text hf hw _
  have hout := (writes_nest hw (d + 1) .fresh x rfl rfl).1
  obtain ⟨n, hn⟩ := nest_reads (rd := fun _ => readLeafInt lo hi) begins_int d x
    (fun y hy => ⟨0, fun _ _ => readsAs_int (hx y hy).1 (hx y hy).2⟩)
  refine ⟨n, fun fuel hf rest => ⟨_, hn fuel hf _ rest (plain_ofList _) (by rw [hout]; rfl), rfl, rfl⟩⟩

/-- C82: the same for vectors of non-empty words. -/
theorem C82_words_partial (d : Nat) (x : Nest BinWord.Word (d + 1)) (hx : ∀ w ∈ leaves (d + 1) x, w ≠ []) :
    ∃ n, ∀ fuel, n ≤ fuel → ∀ rest, ∃ s, readNest fuel (fun s => BinWord.readWord fuel s []) (d + 1)
        (IStream.ofList ((printNest BinWord.writeWord (d + 1) .fresh x).out ++ rest)) = some (.ok (x, s)) ∧
      s.rest = rest ∧ s.good = true := by
  have hw : WritesText BinWord.writeWord BinWord.wordText := fun os x hf hw => by
    rw [BinWord.writeWord_eq os hf]; exact ⟨by simp [hw], hf, rfl⟩
  have hout := (writes_nest hw (d + 1) .fresh x rfl rfl).1
  obtain ⟨n, hn⟩ := nest_reads (rd := fun fuel s => BinWord.readWord fuel s []) begins_word d x (fun y hy => readsAs_word y (hx y hy))
  refine ⟨n, fun fuel hf rest => ⟨_, hn fuel hf _ rest (plain_ofList _) (by rw [hout]; rfl), rfl, rfl⟩⟩

/-- C82 is false for words in general: a vector with an empty word anywhere in it is written with an `e` that the reader
rejects, whatever else it holds. -/
theorem C82_words_refuted (d : Nat) (x : Nest BinWord.Word (d + 1)) (hx : [] ∈ leaves (d + 1) x) :
    ∃ n, ∀ fuel, n ≤ fuel → ∀ rest, readNest fuel (fun s => BinWord.readWord fuel s []) (d + 1)
        (IStream.ofList ((printNest BinWord.writeWord (d + 1) .fresh x).out ++ rest)) = some (.exn .iosFailure) := by
  have hw : WritesText BinWord.writeWord BinWord.wordText := fun os x hf hw => by
    rw [BinWord.writeWord_eq os hf]; exact ⟨by simp [hw], hf, rfl⟩
  have hout := (writes_nest hw (d + 1) .fresh x rfl rfl).1
  obtain ⟨n, hn⟩ := nest_sticks (rd := fun fuel s => BinWord.readWord fuel s []) (G := fun w => w ≠ []) begins_word readsAs_word
    (fun y hy => (Classical.not_not.1 hy) ▸ sticks_word) d x ⟨[], hx, by simp⟩
  exact ⟨n, fun fuel hf rest => hn fuel hf _ rest (plain_ofList _) (by rw [hout]; rfl)⟩

/-- C82: the text of a nested vector. -/
theorem C82_text {wr : OStream → L → OStream} {txt : L → List Char} (h : WritesText wr txt) (d : Nat) (os : OStream) (x : Nest L d)
    (hf : os.failed = false) (hw : os.width = 0) : (printNest wr d os x).out = os.out ++ nestText txt d x :=
  (writes_nest h d os x hf hw).1

example : (readNest 9 (readLeafInt (-9) 9) 2 (IStream.ofList "[[1,-2],[],[3]]x".toList)).map (fun r => (fun r => (r.1, r.2.rest)) <$> r)
    = some (.ok ([[1, -2], [], [3]], ['x'])) := by decide +kernel
example : (printNest OStream.putInt 2 .fresh [[1, -2], [], [3]]).out = "[[1,-2],[],[3]]".toList := by decide +kernel
example : (printNest BinWord.writeWord 2 .fresh [[[true, false]], [[]]]).out = "[[10],[e]]".toList := by decide +kernel
example : (readNest 9 (fun s => BinWord.readWord 9 s []) 2 (IStream.ofList "[[10],[e]]".toList)).map (fun r => (fun r => (r.1, r.2.rest)) <$> r)
    = some (.exn .iosFailure) := by decide +kernel
example : leaves 2 ([[1, -2], [], [3]] : Nest Int 2) = [1, -2, 3] := rfl

end Helper.Seq
