import Verif.MText.Streams
/-!
# Properties C92 and C93
-/
set_option linter.unusedSectionVars false
namespace Helper.MText

variable {sem : Op → Int → Int → Int}

/-- The texts of the values of the parts, one after the other. -/
def shown (sem : Op → Int → Int → Int) (ps : List Flat) : String := String.join (ps.map fun q => (q.value sem).text)

/-- The operators on numbers, for examples. -/
def arith : Op → Int → Int → Int
  | .mul, a, b => a * b
  | .add, a, b => a + b
  | .sub, a, b => a - b
  | .shl, a, b => a * 2 ^ b.toNat
  | .lt, a, b => if a < b then 1 else 0
  | .le, a, b => if a ≤ b then 1 else 0
  | .eq, a, b => if a = b then 1 else 0
  | _, _, _ => 0

/-! ## C93: how arguments are read -/

/-- C93: the model reads a text in the one way that the grammar allows. -/
theorem C93_grammar (f : Flat) (t : Tree) : (Gram 0 t ∧ t.flat = f) ↔ t = f.parse := by
  constructor
  · rintro ⟨h, rfl⟩; exact (parse_of_gram h).symm
  · rintro rfl; exact ⟨parse_gram_zero f, parse_flat f⟩

example : (⟨.num 1, [(.add, .num 2), (.mul, .num 3), (.cond (.num 4), .num 5), (.cond (.num 6), .num 7)]⟩ : Flat).parse =
    .node (.cond (.num 4)) (.node .add (.leaf (.num 1)) (.node .mul (.leaf (.num 2)) (.leaf (.num 3))))
      (.node (.cond (.num 6)) (.leaf (.num 5)) (.leaf (.num 7))) := by decide +kernel

/-- C93: two arguments around an operator that groups from left to right are its operands iff the first has no weaker
operator and the second only tighter ones. -/
theorem C93_unit_iff {o : Op} (ho : o.right = false) (a b : Flat) :
    (a.glue o b).parse = .node o a.parse b.parse ↔ a.Min o.prec ∧ b.Min (o.prec + 1) := by
  refine ⟨fun h => ?_, fun h => parse_glue ho h.1 h.2⟩
  have hg := parse_gram_zero (a.glue o b)
  rw [h] at hg
  cases hg with
  | left _ _ hl hr =>
    have h1 := hl.min
    have h2 := hr.min
    rw [parse_flat] at h1 h2
    exact ⟨h1, h2⟩
  | right h' => rw [ho] at h'; cases h'

/-- C93: `HELPER_TEST_WITHIN` subtracts its second argument from its first iff the first has no operator weaker than `+` and the
second none weaker than `*`, outside parentheses. -/
theorem C93_within_iff (e x : Flat) : (withinText e x).parse = .node .sub e.parse x.parse ↔ e.Min 11 ∧ x.Min 12 :=
  C93_unit_iff rfl e x

/-- C93: and compares with its third argument iff that has only operators tighter than comparisons. -/
theorem C93_tolerance_iff (error : Int) (tol : Flat) :
    (toleranceText error tol).parse = .node .le (.leaf (.num error)) tol.parse ↔ tol.Min 9 := by
  have := C93_unit_iff (o := .le) rfl (.one (.num error)) tol
  rw [show toleranceText error tol = (Flat.one (.num error)).glue .le tol from rfl]
  have e : (Flat.one (Val.num error)).parse = .leaf (.num error) := rfl
  rw [e] at this
  rw [this]
  exact ⟨fun h => h.2, fun h => ⟨Flat.min_one _ _, h⟩⟩

/-- C93 is false: `HELPER_TEST_WITHIN(7,2+3,..)` computes `7-2+3`, and with the tolerance `0?1:2` (which is 2) the error 1 is
within it only because the result of the comparison with 0 picks 2, which is true as any error would be. -/
theorem C93_within_refuted :
    ((withinText (.one (.num 7)) ⟨.num 2, [(.add, .num 3)]⟩).parse.eval arith "").1 = .num 8 ∧
    (⟨.num 2, [(.add, .num 3)]⟩ : Flat).value arith = .num 5 ∧
    (⟨.num 0, [(.cond (.num 1), .num 2)]⟩ : Flat).value arith = .num 2 ∧
    ((toleranceText 100 ⟨.num 0, [(.cond (.num 1), .num 2)]⟩).parse.eval arith "").1.truth = true := by decide +kernel

/-! ## C92: the text of exceptions -/

theorem head_func (p : Place) {f : Flat} {out : String}
    (h : Streams sem f out) : Streams sem (f <<' p.func) (out ++ (p.file ++ ":" ++ toString p.line ++ ": " ++ p.function)) := by
  have := ((((h.str p.file).str ":").num p.line).str ": ").str p.function
  simp only [Place.func, ← Flat.glue_assoc, ← String.append_assoc] at this ⊢
  exact this

theorem head_pretty (p : Place) {f : Flat} {out : String}
    (h : Streams sem f out) : Streams sem (f <<' p.prettyFunc) (out ++ (p.file ++ ":" ++ toString p.line ++ ": " ++ p.pretty)) := by
  have := ((((h.str p.file).str ":").num p.line).str ": ").str p.pretty
  simp only [Place.prettyFunc, ← Flat.glue_assoc, ← String.append_assoc] at this ⊢
  exact this

/-- C92: `HELPER_THROW(except,func,msg)` where `func` and `msg` are written as parts separated by `<<`. -/
theorem C92_throw_partial (except : String) (f m : Flat) (fs ms : List Flat) (hf : ∀ q ∈ f :: fs, Part q) (hm : ∀ q ∈ m :: ms, Part q) :
    written sem (throwText except (chain f fs) (chain m ms)) =
      some (except ++ " in " ++ shown sem (f :: fs) ++ ": " ++ shown sem (m :: ms)) := by
  have h1 := (Streams.os (sem := sem)).str (except ++ " in ")
  have h2 := h1.chain hf
  have h3 := h2.str ": "
  have h4 := h3.chain hm
  have := h4.written
  rw [throwText, glue_chain, glue_chain]
  simp only [String.empty_append] at this
  exact this

theorem throw_func (p : Place) : Streams sem (Val.os <<' Val.str ("std::runtime_error" ++ " in ") <<' p.func <<' Val.str ": ")
    ("std::runtime_error in " ++ p.file ++ ":" ++ toString p.line ++ ": " ++ p.function ++ ": ") := by
  have h := (head_func p ((Streams.os (sem := sem)).str ("std::runtime_error" ++ " in "))).str ": "
  simp only [String.empty_append, ← String.append_assoc] at h
  exact h

theorem throw_pretty (p : Place) : Streams sem (Val.os <<' Val.str ("std::runtime_error" ++ " in ") <<' p.prettyFunc <<' Val.str ": ")
    ("std::runtime_error in " ++ p.file ++ ":" ++ toString p.line ++ ": " ++ p.pretty ++ ": ") := by
  have h := (head_pretty p ((Streams.os (sem := sem)).str ("std::runtime_error" ++ " in "))).str ": "
  simp only [String.empty_append, ← String.append_assoc] at h
  exact h

/-- C92: `HELPER_ASSERT` and `HELPER_DEBUG_ASSERT`. -/
theorem C92_assert (p : Place) (src : String) : written sem (assertText p src) =
    some ("std::runtime_error in " ++ p.file ++ ":" ++ toString p.line ++ ": " ++ p.function ++ ": Assertion `" ++ src ++ "' failed.") := by
  have h := ((((throw_func (sem := sem) p).str "Assertion `").str src).str "' failed.").written
  simp only [assertText, throwText, ← Flat.glue_assoc]
  rw [show (": Assertion `" : String) = ": " ++ "Assertion `" from rfl, ← String.append_assoc]
  exact h

/-- C92: `HELPER_PRECONDITION`. -/
theorem C92_precondition (p : Place) (src : String) : written sem (preconditionText p src) =
    some ("std::runtime_error in " ++ p.file ++ ":" ++ toString p.line ++ ": " ++ p.pretty ++ ": Precondition `" ++ src ++ "' failed.") := by
  have h := ((((throw_pretty (sem := sem) p).str "Precondition `").str src).str "' failed.").written
  simp only [preconditionText, throwText, ← Flat.glue_assoc]
  rw [show (": Precondition `" : String) = ": " ++ "Precondition `" from rfl, ← String.append_assoc]
  exact h

/-- C92: `HELPER_DEBUG_PRECONDITION`. -/
theorem C92_debugPrecondition (p : Place) (src : String) : written sem (debugPreconditionText p src) =
    some ("std::runtime_error in " ++ p.file ++ ":" ++ toString p.line ++ ": " ++ p.function ++ ": Precondition `" ++ src ++ "' failed.") := by
  have h := ((((throw_func (sem := sem) p).str "Precondition `").str src).str "' failed.").written
  simp only [debugPreconditionText, throwText, ← Flat.glue_assoc]
  rw [show (": Precondition `" : String) = ": " ++ "Precondition `" from rfl, ← String.append_assoc]
  exact h

/-- The macros with a message: the message follows this text. -/
inductive MsgMacro where
  | assert | precondition | fail
deriving DecidableEq, Repr

def MsgMacro.body (p : Place) (src : String) : MsgMacro → Flat → Flat
  | .assert => assertMsgText p src
  | .precondition => preconditionMsgText p src
  | .fail => failMsgText p

/-- What stands before the message. -/
def MsgMacro.start (p : Place) (src : String) : MsgMacro → String
  | .assert => "std::runtime_error in " ++ p.file ++ ":" ++ toString p.line ++ ": " ++ p.pretty ++ ": " ++ "Assertion `" ++ src ++ "' failed.\n" ++ "  "
  | .precondition => "std::runtime_error in " ++ p.file ++ ":" ++ toString p.line ++ ": " ++ p.pretty ++ ": " ++ "Precondition `" ++ src ++ "' failed.\n" ++ "  "
  | .fail => "std::runtime_error in " ++ p.file ++ ":" ++ toString p.line ++ ": " ++ p.pretty ++ ": " ++ "ErrorTag "

theorem msg_head (k : MsgMacro) (p : Place) (src : String) :
    ∃ f, Streams sem f (k.start p src) ∧ ∀ error, k.body p src error = f <<' error := by
  cases k with
  | assert =>
    have h := ((((throw_pretty (sem := sem) p).str "Assertion `").str src).str "' failed.\n").str "  "
    refine ⟨Val.os <<' Val.str ("std::runtime_error" ++ " in ") <<' p.prettyFunc <<' Val.str ": " <<' Val.str "Assertion `" <<'
        Val.str src <<' Val.str "' failed.\n" <<' Val.str "  ", ?_, fun error => ?_⟩
    · exact h
    · simp only [MsgMacro.body, assertMsgText, throwText, ← Flat.glue_assoc]
  | precondition =>
    have h := ((((throw_pretty (sem := sem) p).str "Precondition `").str src).str "' failed.\n").str "  "
    refine ⟨Val.os <<' Val.str ("std::runtime_error" ++ " in ") <<' p.prettyFunc <<' Val.str ": " <<' Val.str "Precondition `" <<'
        Val.str src <<' Val.str "' failed.\n" <<' Val.str "  ", ?_, fun error => ?_⟩
    · exact h
    · simp only [MsgMacro.body, preconditionMsgText, throwText, ← Flat.glue_assoc]
  | fail =>
    have h := (throw_pretty (sem := sem) p).str "ErrorTag "
    refine ⟨Val.os <<' Val.str ("std::runtime_error" ++ " in ") <<' p.prettyFunc <<' Val.str ": " <<' Val.str "ErrorTag ", ?_, fun error => ?_⟩
    · exact h
    · simp only [MsgMacro.body, failMsgText, throwText, ← Flat.glue_assoc]

/-- C92: the macros with a message show the values of the parts of the message, if these are separated by `<<` and have only
tighter operators in them. -/
theorem C92_msg_partial (k : MsgMacro) (p : Place) (src : String) (m : Flat) (ms : List Flat) (hm : ∀ q ∈ m :: ms, Part q) :
    written sem (k.body p src (chain m ms)) = some (k.start p src ++ shown sem (m :: ms)) := by
  obtain ⟨f, hf, e⟩ := msg_head (sem := sem) k p src
  rw [e, glue_chain]
  exact (hf.chain hm).written

/-- The message of lru_cache.hpp:62 for the label 7. -/
example : written arith (assertMsgText ⟨"lru_cache.hpp", 62, "get", "get"⟩ "e != _elements.end()"
      (Val.str "Cache has no element for label " <<' Val.num 7)) =
    some "std::runtime_error in lru_cache.hpp:62: get: Assertion `e != _elements.end()' failed.\n  Cache has no element for label 7" := by
  decide +kernel

/-- C92: of a message `l && r`, `l || r` or `l ? m : r` only `l` is shown. -/
theorem C92_tests (k : MsgMacro) (p : Place) (src : String) {l r : Flat} {o : Op} (ho : o.tests = true)
    (hl : l.Min (if o.right then o.prec + 1 else o.prec)) (hr : r.Min (if o.right then o.prec else o.prec + 1))
    (hp : r.Plain) (hy : r.Typed) (hm : o.takes r) :
    written sem (k.body p src (l.glue o r)) = written sem (k.body p src l) := by
  obtain ⟨f, hf, e⟩ := msg_head (sem := sem) k p src
  rw [e, e]
  exact after_tests hf ho hl hr hp hy hm

/-- C92: a message with a comparison or a bitwise operator as its weakest operator does not compile. -/
theorem C92_illFormed (k : MsgMacro) (p : Place) (src : String) {l r : Flat} {o : Op} (ho : o.prec < 10) (ht : o.tests = false)
    (hl : l.Min o.prec) (hr : r.Min (o.prec + 1)) (hp : l.Plain) : written sem (k.body p src (l.glue o r)) = none := by
  obtain ⟨f, hf, e⟩ := msg_head (sem := sem) k p src
  rw [e]
  exact after_illFormed hf ho ht hl hr hp

/-- C92 is false for a message `n<0 ? "negative" : "too large"` of any of the macros: it does not even compile. With a variable
`b` for the condition it does, but the message shown is the value of `b`. -/
theorem C92_refuted (k : MsgMacro) (p : Place) (src : String) (b : Int) (s1 s2 : String) :
    written sem (k.body p src ⟨.num b, [(.cond (.str s1), .str s2)]⟩) = some (k.start p src ++ toString b) ∧
    (⟨.num b, [(.cond (.str s1), .str s2)]⟩ : Flat).value sem = .str (if b ≠ 0 then s1 else s2) := by
  constructor
  · have h := C92_tests (sem := sem) k p src (l := .one (.num b)) (r := .one (.str s2)) (o := .cond (.str s1)) rfl
      (Flat.min_one _ _) (Flat.min_one _ _) (plain_one.2 (by simp)) rfl (by intro m hm; cases hm; rfl)
    have h' := C92_msg_partial (sem := sem) k p src (.one (.num b)) [] (by
      intro q hq; rw [List.mem_singleton.1 hq]; exact Part.val (by simp))
    rw [show chain (Flat.one (.num b)) [] = Flat.one (.num b) from rfl] at h'
    rw [show (⟨.num b, [(.cond (.str s1), .str s2)]⟩ : Flat) = (Flat.one (.num b)).glue (.cond (.str s1)) (Flat.one (.str s2)) from rfl,
      h, h', shown]
    simp [Flat.value, Flat.parse, Flat.one, Tree.eval, Val.text]
  · by_cases hb : b = 0 <;> simp [Flat.value, Flat.parse, Tree.push, Tree.eval, Val.truth, hb]

/-- The conditional with a comparison: it groups as `(stream << n) < 0`. -/
example : written arith (assertMsgText ⟨"f", 1, "g", "g"⟩ "x" ⟨.num (-1), [(.lt, .num 0), (.cond (.str "a"), .str "b")]⟩) = none ∧
    written arith (assertMsgText ⟨"f", 1, "g", "g"⟩ "x" ⟨.num 1, [(.cond (.str "a"), .str "b")]⟩) =
      some "std::runtime_error in f:1: g: Assertion `x' failed.\n  1" := by decide +kernel

/-! ## `HELPER_ASSERT_EQUAL` -/

/-- What `HELPER_ASSERT_EQUAL` writes before the values. -/
def equalStart (p : Place) (src1 src2 : String) : String :=
  "std::runtime_error in " ++ p.file ++ ":" ++ toString p.line ++ ": " ++ p.pretty ++ ": " ++ "Assertion `" ++ src1 ++ "==" ++ src2 ++ "' failed.\n" ++ "  "

theorem equal_head (p : Place) (src1 src2 : String) : ∃ f, Streams sem f (equalStart p src1 src2) ∧
    ∀ e1 e2, assertEqualText p src1 src2 e1 e2 = f <<' e1 <<' Val.str " != " <<' e2 := by
  have h := ((((((throw_pretty (sem := sem) p).str "Assertion `").str src1).str "==").str src2).str "' failed.\n").str "  "
  refine ⟨Val.os <<' Val.str ("std::runtime_error" ++ " in ") <<' p.prettyFunc <<' Val.str ": " <<' Val.str "Assertion `" <<'
      Val.str src1 <<' Val.str "==" <<' Val.str src2 <<' Val.str "' failed.\n" <<' Val.str "  ", ?_, fun e1 e2 => ?_⟩
  · exact h
  · simp only [assertEqualText, throwText, ← Flat.glue_assoc]

/-- C93: `HELPER_ASSERT_EQUAL` shows the values that it compared if the arguments have only operators tighter than `<<`. -/
theorem C93_equal_partial (p : Place) (src1 src2 : String) (e1 e2 : Flat) (h1 : Part e1) (h2 : Part e2) :
    written sem (assertEqualText p src1 src2 e1 e2) =
      some (equalStart p src1 src2 ++ (e1.value sem).text ++ " != " ++ (e2.value sem).text) := by
  obtain ⟨f, hf, e⟩ := equal_head (sem := sem) p src1 src2
  rw [e]
  exact (((hf.part h1).str " != ").part h2).written

/-- C93: shifts in the arguments are shown as separate values. -/
theorem C93_equal_shifts (p : Place) (src1 src2 : String) (a b : Flat) (as bs : List Flat)
    (ha : ∀ q ∈ a :: as, Part q) (hb : ∀ q ∈ b :: bs, Part q) :
    written sem (assertEqualText p src1 src2 (chain a as) (chain b bs)) =
      some (equalStart p src1 src2 ++ shown sem (a :: as) ++ " != " ++ shown sem (b :: bs)) := by
  obtain ⟨f, hf, e⟩ := equal_head (sem := sem) p src1 src2
  rw [e, glue_chain, glue_chain]
  exact (((hf.chain ha).str " != ").chain hb).written

/-- C93: a weaker operator in the first argument does not compile. -/
theorem C93_equal_first (p : Place) (src1 src2 : String) (e1 e2 : Flat) (hp : e1.Plain) (hw : ¬ e1.Min 10) :
    written sem (assertEqualText p src1 src2 e1 e2) = none := by
  obtain ⟨f, hf, e⟩ := equal_head (sem := sem) p src1 src2
  rw [e, Flat.glue_assoc]
  exact between_illFormed f e1 _ " != " hp hw rfl

/-- C93: of a second argument `l && r`, `l || r` or `l ? m : r` only `l` is shown; other operators weaker than `<<` do not compile. -/
theorem C93_equal_second (p : Place) (src1 src2 : String) (e1 l r : Flat) (o : Op) (h1 : Part e1) (ho : o.prec < 10)
    (hl : l.Min (if o.right then o.prec + 1 else o.prec)) (hr : r.Min (if o.right then o.prec else o.prec + 1))
    (hlp : l.Plain) (hp : r.Plain) (hy : r.Typed) (hm : o.takes r) :
    written sem (assertEqualText p src1 src2 e1 (l.glue o r)) =
      if o.tests then written sem (assertEqualText p src1 src2 e1 l) else none := by
  obtain ⟨f, hf, e⟩ := equal_head (sem := sem) p src1 src2
  rw [e, e]
  have hs := (hf.part h1).str " != "
  cases ht : o.tests with
  | true => exact after_tests hs ht hl hr hp hy hm
  | false =>
    have hr' : o.right = false := by cases o <;> simp [Op.tests] at ht <;> rfl
    rw [hr'] at hl hr
    exact after_illFormed hs ho ht hl hr hlp

/-- C93 is false: `HELPER_ASSERT_EQUAL(1<<2,5)` compares 4 with 5 and shows `12 != 5`; `HELPER_ASSERT_EQUAL(4,1&&0)` compares 4 with
0 and shows `4 != 1`; `HELPER_ASSERT_EQUAL(1<2,5)` does not compile, although its condition does. -/
theorem C93_equal_refuted :
    written arith (assertEqualText ⟨"f", 1, "g", "g"⟩ "1<<2" "5" ⟨.num 1, [(.shl, .num 2)]⟩ (.one (.num 5))) =
      some "std::runtime_error in f:1: g: Assertion `1<<2==5' failed.\n  12 != 5" ∧
    (⟨.num 1, [(.shl, .num 2)]⟩ : Flat).value arith = .num 4 ∧
    written arith (assertEqualText ⟨"f", 1, "g", "g"⟩ "4" "1&&0" (.one (.num 4)) ⟨.num 1, [(.land, .num 0)]⟩) =
      some "std::runtime_error in f:1: g: Assertion `4==1&&0' failed.\n  4 != 1" ∧
    (⟨.num 1, [(.land, .num 0)]⟩ : Flat).value arith = .num 0 ∧
    written arith (assertEqualText ⟨"f", 1, "g", "g"⟩ "1<2" "5" ⟨.num 1, [(.lt, .num 2)]⟩ (.one (.num 5))) = none ∧
    (assertEqualCond ⟨.num 1, [(.lt, .num 2)]⟩ (.one (.num 5))).ty = some .num ∧
    ((assertEqualCond ⟨.num 1, [(.lt, .num 2)]⟩ (.one (.num 5))).eval arith "").1 = .num 0 := by decide +kernel

/-! ## Diagnostics -/

/-- C93: the diagnostic macros and those of the tests that write a message show the values of its parts. -/
theorem C93_note_partial (before after : String) (m : Flat) (ms : List Flat) (hm : ∀ q ∈ m :: ms, Part q) :
    written sem (noteText (.one (.str before)) (chain m ms) after) = some (before ++ shown sem (m :: ms) ++ after ++ "\n") := by
  have h := ((((Streams.os (sem := sem)).str before).chain hm).str after).str "\n"
  rw [noteText, glue_chain]
  simp only [String.empty_append] at h
  exact h.written

/-- C93: the title of a test case has its number before it. -/
theorem C93_title_partial (n : Int) (m : Flat) (ms : List Flat) (hm : ∀ q ∈ m :: ms, Part q) :
    written sem (noteText (Val.str "*** " <<' Val.num n <<' Val.str ": ") (chain m ms) " ***") =
      some ("*** " ++ toString n ++ ": " ++ shown sem (m :: ms) ++ " ***" ++ "\n") := by
  have h := ((((((Streams.os (sem := sem)).str "*** ").num n).str ": ").chain hm).str " ***").str "\n"
  rw [noteText, glue_chain]
  simp only [← Flat.glue_assoc]
  simp only [String.empty_append] at h
  exact h.written

/-- C93: with a weaker operator in the message they do not compile. -/
theorem C93_note_weak (before m : Flat) (after : String) (hp : m.Plain) (hw : ¬ m.Min 10) :
    written sem (noteText before m after) = none := by
  rw [noteText, Flat.glue_assoc]
  exact between_illFormed _ m _ after hp hw rfl

example : written arith (noteText (.one (.str "WARNING: ")) (chain (.one (.str "x=")) [⟨.num 1, [(.add, .num 2)]⟩]) "") =
    some "WARNING: x=3\n" ∧
    written arith (noteText (.one (.str "WARNING: ")) ⟨.num 1, [(.cond (.str "a"), .str "b")]⟩ "") = none := by decide +kernel

end Helper.MText
