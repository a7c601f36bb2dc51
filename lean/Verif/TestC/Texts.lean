import Verif.TestC.Reports
/-!
# The texts of the messages

The tokens are turned into text, and the text that each macro writes to `std::cout` and `std::cerr` is given in full.
-/
set_option linter.unusedSectionVars false
namespace Helper.TestC

open Helper.Macro Spec

variable {σ V α β : Type}

/-- What the compiler and the types of the program put into the messages. -/
structure Env (V : Type) where
  file : Nat → String
  line : Nat → Nat
  func : Nat → String
  pretty : Nat → String
  src : Nat → Nat → String
  type : Nat → String
  show_ : V → String
  what : Thrown → String

/-- The name of the class under test; `"???"` at first (test.hpp:43). -/
def Env.cls (env : Env V) : Option Nat → String
  | none => "???"
  | some l => env.src l 0

def Tok.text (env : Env V) : Tok V → String
  | .lit s => s
  | .file l => env.file l
  | .line l => toString (env.line l)
  | .func l => env.func l
  | .pretty l => env.pretty l
  | .src l k => env.src l k
  | .type l => env.type l
  | .val v => env.show_ v
  | .what t => env.what t
  | .num n => toString n
  | .cls c => env.cls c

def render (env : Env V) : List (Tok V) → String
  | [] => ""
  | t :: ts => t.text env ++ render env ts

theorem render_append (env : Env V) (ts us : List (Tok V)) : render env (ts ++ us) = render env ts ++ render env us := by
  induction ts with
  | nil => simp [render]
  | cons t ts ih => simp [render, ih, String.append_assoc]

/-- `m`, run in `wt`, writes the text `o` to `std::cout` and `e` to `std::cerr`. -/
def Printed (env : Env V) (m : MT σ V Unit) (wt : WT σ V) (o e : String) : Prop :=
  render env (m wt).2.io.out = render env wt.io.out ++ o ∧ render env (m wt).2.io.err = render env wt.io.err ++ e

/-- The expression always has the value `v`. -/
def Always (e : Exp σ α) (v : α) : Prop := ∀ s, ∃ s', e s = (.val v, s')

/-- The place of site `l`. -/
def place (env : Env V) (l : Nat) : String := s!"ERROR: {env.file l}:{env.line l}: {env.pretty l}: "

/-- The same for macros that use `__FUNCTION__`. -/
def placeF (env : Env V) (l : Nat) : String := s!"ERROR: {env.file l}:{env.line l}: {env.func l}: "

/-! ## Rules -/

/-- `m` adds these tokens if `c` further failures can be counted. -/
def Adds (c : Nat) (m : MT σ V Unit) (o e : List (Tok V)) : Prop := ∀ wt, wt.w.fails + c < 2 ^ 31 →
  (m wt).2.io.out = wt.io.out ++ o ∧ (m wt).2.io.err = wt.io.err ++ e

namespace Adds

theorem couts {c : Nat} {ts : List (Tok V)} : Adds c (cout (σ := σ) ts) ts [] := fun _ _ => ⟨rfl, (List.append_nil _).symm⟩

theorem cerrs {c : Nat} {ts : List (Tok V)} : Adds c (cerr (σ := σ) ts) [] ts := fun _ _ => ⟨(List.append_nil _).symm, rfl⟩

theorem done {c : Nat} : Adds (σ := σ) (V := V) c (MT.pure ()) [] [] := fun _ _ => ⟨(List.append_nil _).symm, (List.append_nil _).symm⟩

theorem cout {c : Nat} {ts o e : List (Tok V)} {m : MT σ V Unit} (h : Adds c m o e) : Adds c (cout ts ;; m) (ts ++ o) e := by
  intro wt hf
  obtain ⟨h1, h2⟩ := h { wt with io := { wt.io with out := wt.io.out ++ ts } } hf
  exact ⟨by rw [← List.append_assoc]; exact h1, h2⟩

theorem cerr {c : Nat} {ts o e : List (Tok V)} {m : MT σ V Unit} (h : Adds c m o e) : Adds c (cerr ts ;; m) o (ts ++ e) := by
  intro wt hf
  obtain ⟨h1, h2⟩ := h { wt with io := { wt.io with err := wt.io.err ++ ts } } hf
  exact ⟨h1, by rw [← List.append_assoc]; exact h2⟩

theorem count {o e : List (Tok V)} {m : MT σ V Unit} (h : Adds 0 m o e) : Adds 1 (count ;; m) o e := by
  intro wt hf
  obtain ⟨h1, h2⟩ := h ⟨{ wt.w with fails := wt.w.fails + 1 }, wt.io⟩ hf
  simp only [MT.bind, TestC.count, MT.silent, incr, if_pos hf]
  exact ⟨h1, h2⟩

theorem lift {c : Nat} {x : Exp σ α} {v : α} {o e : List (Tok V)} {f : α → MT σ V Unit} (hx : Always x v) (h : Adds c (f v) o e) :
    Adds c ((MT.lift x).bind f) o e := by
  intro wt hf
  obtain ⟨s, hs⟩ := hx wt.w.u
  obtain ⟨h1, h2⟩ := h ⟨{ wt.w with u := s }, wt.io⟩ hf
  simp only [MT.bind, MT.lift, MT.silent, M.lift, hs]
  exact ⟨h1, h2⟩

theorem yes {c : Nat} {m m' : MT σ V Unit} {o e : List (Tok V)} (h : Adds c m o e) : Adds c (if true = true then m else m') o e := h

theorem no {c : Nat} {m m' : MT σ V Unit} {o e : List (Tok V)} (h : Adds c m' o e) : Adds c (if false = true then m else m') o e := h

/-- Something that throws. -/
theorem throws {c : Nat} {x : Exp σ α} {t : Thrown} {f : α → MT σ V Unit} (hx : ∀ s, ∃ s', x s = (.thrown t, s')) :
    Adds c ((MT.lift x).bind f) [] [] := by
  intro wt _
  obtain ⟨s, hs⟩ := hx wt.w.u
  simp only [MT.bind, MT.lift, MT.silent, M.lift, hs]
  exact ⟨(List.append_nil _).symm, (List.append_nil _).symm⟩

end Adds

theorem Always.bind {e : Exp σ α} {f : α → Exp σ β} {a : α} {b : β} (he : Always e a) (hf : Always (f a) b) : Always (e.bind f) b := by
  intro s
  obtain ⟨s1, h1⟩ := he s
  obtain ⟨s2, h2⟩ := hf s1
  exact ⟨s2, by simp only [Exp.bind, h1, h2]⟩

theorem Always.both {e : Exp σ α} {x : Exp σ β} {a : α} {b : β} (rtl : Bool) (he : Always e a) (hx : Always x b) :
    Always (Exp.both rtl e x) (a, b) := by
  cases rtl
  · exact he.bind (hx.bind fun s => ⟨s, rfl⟩)
  · exact hx.bind (he.bind fun s => ⟨s, rfl⟩)

theorem Always.rel {e x : Exp σ V} {a b : V} {r : V → V → Exp σ β} {v : β} (rtl : Bool) (he : Always e a) (hx : Always x b)
    (hr : Always (r a b) v) : Always ((Exp.both rtl e x).bind fun p => r p.1 p.2) v := (he.both rtl hx).bind hr

/-- Collects the tokens of a message. -/
macro "adds" : tactic => `(tactic| (
  try simp only [twoValues, twoValuesErr, oneValue, coutV, cerrV, testingCheckT, MT.assoc]
  repeat' first
    | with_reducible exact Adds.couts
    | with_reducible exact Adds.cerrs
    | with_reducible exact Adds.done
    | with_reducible apply Adds.cout
    | with_reducible apply Adds.cerr
    | with_reducible apply Adds.count
    | with_reducible apply Adds.yes
    | with_reducible apply Adds.no
    | (with_reducible apply Adds.lift; with_reducible assumption)))

theorem Printed.intro {env : Env V} {m : MT σ V Unit} {wt : WT σ V} {ts us : List (Tok V)} {o e : String}
    (hf : wt.w.fails + 1 < 2 ^ 31) (h : Adds 1 m ts us) (ho : render env ts = o) (he : render env us = e) :
    Printed env m wt o e := by
  subst ho he
  obtain ⟨h1, h2⟩ := h wt hf
  exact ⟨by rw [h1, render_append], by rw [h2, render_append]⟩

/-- Compares texts. -/
macro "text" : tactic => `(tactic| (
  apply String.toList_inj.1
  simp [render, Tok.text, render_append, here, hereF, place, placeF, toString, bar, Env.cls, Static.title, Static.msg]))

/-- The same after what was there before. -/
macro "text'" : tactic => `(tactic| (
  apply String.toList_inj.1
  simp [render, Tok.text, here, hereF, place, placeF, toString, bar, Env.cls, Static.title, Static.msg, How.title, How.msg,
    render_append]))

/-- Text against tokens. -/
macro "printed" : tactic => `(tactic| (
  apply Printed.intro (by assumption)
  · adds
  · text
  · text))

/-! ## Checks -/

section
variable {env : Env V} {l : Nat} {rtl ok : Bool} {r : V → V → Exp σ Bool} {e x : Exp σ V} {a b : V} {wt : WT σ V}

theorem assert_always {c : Exp σ Bool} (hc : Always c ok) (hf : wt.w.fails + 1 < 2 ^ 31) :
    Printed env (execT rtl (.assert l c)) wt
      (s!"{env.src l 0}: " ++ if ok then s!"true\n\n" else
        s!"\nERROR: false\n")
      (if ok then "" else placeF env l ++
        s!"Assertion `{env.src l 0}' failed.\n") := by
  simp only [execT, assertT]
  cases ok <;> printed

/-- `HELPER_TEST_ASSERT` -/
theorem C91_assert {c : Exp σ Bool} {s : σ} (hc : c wt.w.u = (.val ok, s)) (hf : wt.w.fails + 1 < 2 ^ 31) :
    Printed env (execT rtl (.assert l c)) wt
      (s!"{env.src l 0}: " ++ if ok then s!"true\n\n" else
        s!"\nERROR: false\n")
      (if ok then "" else placeF env l ++
        s!"Assertion `{env.src l 0}' failed.\n") :=
  assert_always (rtl := rtl) (c := fun _ => c wt.w.u) (fun _ => ⟨s, hc⟩) hf

/-- `HELPER_TEST_CHECK` -/
theorem C91_check_partial (he : Always e a) (hx : Always x b) (hr : Always (r a b) ok) (hf : wt.w.fails + 1 < 2 ^ 31) :
    Printed env (execT rtl (.check l r e x)) wt
      (s!"{env.src l 0}: {env.show_ a}" ++ if ok then s!"\n\n" else
        s!"\nERROR: expected {env.src l 0} = {env.src l 1} == {env.show_ b} \n\n")
      (if ok then "" else place env l ++
        s!"Check `{env.src l 0}=={env.src l 1}' failed; obtained {env.show_ a}\n") := by
  have hb := he.both rtl hx
  simp only [execT, checkT]
  cases ok <;> printed

/-- `HELPER_TEST_SAME` -/
theorem C91_same_partial (he : Always e a) (hx : Always x b) (hr : Always (r a b) ok) (hf : wt.w.fails + 1 < 2 ^ 31) :
    Printed env (execT rtl (.same l r e x)) wt
      (s!"same({env.src l 0},{env.src l 1}): " ++ if ok then s!"true\n\n" else
        s!"\nERROR: {env.src l 0}:\n           {env.show_ a}\n     : {env.src l 1}:\n           {env.show_ b}\n")
      (if ok then "" else place env l ++
        s!"Identity `{env.src l 0} === {env.src l 1}' failed; {env.src l 0}={env.show_ a}; {env.src l 1}={env.show_ b}\n") := by
  have hv := he.rel rtl hx hr
  simp only [execT, sameT]
  cases ok <;> printed

/-- `HELPER_TEST_SAME_AS` -/
theorem C91_sameAs_partial (he : Always e a) (hx : Always x b) (hr : Always (r a b) ok) (hf : wt.w.fails + 1 < 2 ^ 31) :
    Printed env (execT rtl (.sameAs l r e x)) wt
      (s!"{env.src l 0} == {env.src l 1}: " ++ if ok then s!"true\n\n" else
        s!"\nERROR: {env.src l 0}:\n           {env.show_ a}\n")
      (if ok then "" else place env l ++
        s!"Sameness of `{env.src l 0} and {env.src l 1}' failed;\n  {env.src l 0}={env.show_ a}\n  {env.src l 1}={env.show_ b}\n") := by
  have hv := he.rel rtl hx hr
  simp only [execT, sameAsT]
  cases ok <;> printed

/-- `HELPER_TEST_EQUAL` -/
theorem C91_equal_partial (he : Always e a) (hx : Always x b) (hr : Always (r a b) ok) (hf : wt.w.fails + 1 < 2 ^ 31) :
    Printed env (execT rtl (.equal l r e x)) wt
      (s!"{env.src l 0} == {env.src l 1}: " ++ if ok then s!"true\n\n" else
        s!"\nERROR: {env.src l 0}:\n           {env.show_ a}\n     : {env.src l 1}:\n           {env.show_ b}\n")
      (if ok then "" else place env l ++
        s!"Equality `{env.src l 0} == {env.src l 1}' failed; {env.src l 0}={env.show_ a}; {env.src l 1}={env.show_ b}\n") := by
  have hv := he.rel rtl hx hr
  simp only [execT, equalT]
  cases ok <;> printed

/-- `HELPER_TEST_NOT_EQUAL` -/
theorem C91_notEqual_partial (he : Always e a) (hx : Always x b) (hr : Always (r a b) (!ok)) (hf : wt.w.fails + 1 < 2 ^ 31) :
    Printed env (execT rtl (.notEqual l r e x)) wt
      (s!"{env.src l 0} != {env.src l 1}: " ++ if ok then s!"true\n\n" else
        s!"\nERROR: {env.src l 0}:\n           {env.show_ a}\n     : {env.src l 1}:\n           {env.show_ b}\n")
      (if ok then "" else place env l ++
        s!"Inequality `{env.src l 0} != {env.src l 1}' failed; {env.src l 0}={env.show_ a}; {env.src l 1}={env.show_ b}\n") := by
  have hv := he.rel rtl hx hr
  simp only [execT, notEqualT]
  cases ok <;> simp only [Bool.not_false, Bool.not_true] at hv <;> printed

/-- `HELPER_TEST_EQUALS` -/
theorem C91_equals_partial (he : Always e a) (hx : Always x b) (hr : Always (r a b) ok) (hf : wt.w.fails + 1 < 2 ^ 31) :
    Printed env (execT rtl (.equals l r e x)) wt
      (s!"{env.src l 0} == {env.src l 1}: " ++ if ok then s!"true\n\n" else
        s!"\nERROR: {env.src l 0}:\n           {env.show_ a}\n")
      (if ok then "" else place env l ++
        s!"Equality `{env.src l 0} == {env.src l 1}' failed;\n  {env.src l 0}={env.show_ a}\n  {env.src l 1}={env.show_ b}\n") := by
  have hv := he.rel rtl hx hr
  simp only [execT, equalsT]
  cases ok <;> printed

/-- `HELPER_TEST_WITHIN` -/
theorem C91_within_partial {dist : V → V → Exp σ V} {t : Exp σ V} {c d : V} (he : Always e a) (hx : Always x b) (hd : Always (dist a b) c) (ht : Always t d)
    (hr : Always (r c d) ok) (hf : wt.w.fails + 1 < 2 ^ 31) :
    Printed env (execT rtl (.within l dist r e x t)) wt
      (s!"{env.src l 0} ~ {env.src l 1}: " ++ if ok then s!"true\n\n" else
        s!"\nERROR: {env.src l 0}:\n           {env.show_ a}\n     : {env.src l 1}:\n           {env.show_ b}\n     : error: {env.show_ c}\n     : tolerance {env.show_ d}\n")
      (if ok then "" else place env l ++
        s!"ApproximateTag equality `{env.src l 0} ~ {env.src l 1}' failed; {env.src l 0}={env.show_ a}; {env.src l 1}={env.show_ b}; error={env.show_ c}; tolerance={env.show_ d}\n") := by
  have hv := he.rel rtl hx hd
  have hv' : Always (t.bind fun t => r c t) ok := ht.bind hr
  simp only [execT, withinT]
  cases ok <;> printed

/-- `HELPER_TEST_LESS`: the message calls the comparison an equality. -/
theorem C91_less_partial (he : Always e a) (hx : Always x b) (hr : Always (r a b) ok) (hf : wt.w.fails + 1 < 2 ^ 31) :
    Printed env (execT rtl (.less l r e x)) wt
      (s!"{env.src l 0} < {env.src l 1}: " ++ if ok then s!"true\n\n" else
        s!"\nERROR: {env.src l 0}:\n           {env.show_ a}\n")
      (if ok then "" else place env l ++
        s!"Equality `{env.src l 0} < {env.src l 1}' failed; {env.src l 0}={env.show_ a}\n") := by
  have hv := he.rel rtl hx hr
  simp only [execT, lessT]
  cases ok <;> printed

/-- `HELPER_TEST_UNARY_PREDICATE` -/
theorem C91_unaryPredicate_partial {q : V → Exp σ Bool} (he : Always e a) (hr : Always (q a) ok) (hf : wt.w.fails + 1 < 2 ^ 31) :
    Printed env (execT rtl (.unaryPredicate l q e)) wt
      (s!"{env.src l 0}({env.src l 1}) with {env.src l 1}={env.show_ a}: " ++ if ok then s!"true\n\n" else
        s!"\nERROR: false\n")
      (if ok then "" else place env l ++
        s!"Predicate `{env.src l 0}({env.src l 1})' with {env.src l 1}={env.show_ a} is false.\n") := by
  have hv : Always (e.bind q) ok := he.bind hr
  simp only [execT, unaryPredicateT]
  cases ok <;> printed

/-- `HELPER_TEST_BINARY_PREDICATE` -/
theorem C91_binaryPredicate_partial (he : Always e a) (hx : Always x b) (hr : Always (r a b) ok) (hf : wt.w.fails + 1 < 2 ^ 31) :
    Printed env (execT rtl (.binaryPredicate l r e x)) wt
      (s!"{env.src l 0}({env.src l 1},{env.src l 2}) with {env.src l 1}={env.show_ a}, {env.src l 2}={env.show_ b}: " ++ if ok then s!"true\n\n" else
        s!"\nERROR: false\n")
      (if ok then "" else place env l ++
        s!"Predicate `{env.src l 0}({env.src l 1},{env.src l 2})' with\n  {env.src l 1}={env.show_ a};\n  {env.src l 2}={env.show_ b} is false.\n") := by
  have hv := he.rel rtl hx hr
  simp only [execT, binaryPredicateT]
  cases ok <;> printed

/-- `HELPER_TEST_COMPARE` -/
theorem C91_compare_partial (he : Always e a) (hx : Always x b) (hr : Always (r a b) ok) (hf : wt.w.fails + 1 < 2 ^ 31) :
    Printed env (execT rtl (.compare l r e x)) wt
      (s!"{env.src l 0}: {env.show_ a}" ++ if ok then s!" {env.src l 1} {env.show_ b}: true\n\n" else
        s!"\nERROR: expected: {env.src l 0}{env.src l 1}{env.src l 2}={env.show_ b}\n")
      (if ok then "" else place env l ++
        s!"Comparison `{env.src l 0}{env.src l 1}{env.src l 2}' failed; {env.src l 0}={env.show_ a}; {env.src l 2}={env.show_ b}\n") := by
  have hv := he.rel rtl hx hr
  simp only [execT, compareT]
  cases ok <;> printed

/-- `HELPER_TEST_RESULT_COMPARE` -/
theorem C91_resultCompare_partial (he : Always e a) (hx : Always x b) (hr : Always (r a b) ok) (hf : wt.w.fails + 1 < 2 ^ 31) :
    Printed env (execT rtl (.resultCompare l r e x)) wt
      (s!"{env.src l 1}: {env.show_ a}" ++ if ok then s!" {env.src l 2} {env.show_ b}\n\n" else
        s!"\nERROR: expected: {env.src l 1}{env.src l 2}{env.src l 3}\n")
      (if ok then "" else place env l ++
        s!"Comparison `{env.src l 1}{env.src l 2}{env.src l 3}' failed; {env.src l 1}={env.show_ a}; {env.src l 3}={env.show_ b}\n") := by
  have hv : Always (x.bind fun b => r a b) ok := hx.bind hr
  simp only [execT, resultCompareT]
  cases ok <;> printed

/-- `HELPER_TEST_CHECK_WARN` -/
theorem C91_checkWarn_partial (he : Always e a) (hx : Always x b) (hr : Always (r a b) ok) (hf : wt.w.fails + 1 < 2 ^ 31) :
    Printed env (execT rtl (.checkWarn l r e x)) wt
      (s!"{env.src l 0}: {env.show_ a}" ++ if ok then "\n\n" else
        s!"\nWARNING: expected {env.src l 0} = {env.src l 1} == {env.show_ b} \n\n")
      (if ok then "" else s!"WARNING: {env.file l}:{env.line l}: {env.pretty l}: Check `{env.src l 0}=={env.src l 1}' failed; obtained {env.show_ a}\n") := by
  have hb := he.both rtl hx
  simp only [execT, checkWarnT]
  cases ok <;> printed

/-- `HELPER_TEST_STATIC_ASSERT`, `HELPER_TEST_CONCEPT` and `HELPER_TEST_SAME_TYPE`; they also name the class under test. -/
theorem C91_staticAssert (k : Static) (hf : wt.w.fails + 1 < 2 ^ 31) :
    let title := match k with
      | .sameType => s!"Same<{env.src l 0}>: "
      | _ => s!"{env.src l 0}: "
    let msg := placeF env l ++ env.cls wt.io.cls ++ match k with
      | .assertion => s!": Static assertion `{env.src l 0}' failed."
      | .concept_ => s!": Concept `{env.src l 0}' failed."
      | .sameType => s!": Static assertion `Same<{env.src l 0}>' failed. First type is {env.type l}"
    Printed env (execT rtl (.staticAssert k l ok)) wt
      (title ++ if ok then "true\n\n" else "false\n\n" ++ msg ++ "\n\n")
      (if ok then "" else msg ++ "\n") := by
  cases ok <;> cases k <;>
    simp only [Printed, execT, staticAssertT, Bool.false_eq_true, if_false, if_true, MT.bind, cout, cerr, count, MT.silent, incr,
      if_pos hf, render_append] <;> refine ⟨?_, ?_⟩ <;> text'

/-! ## Output and messages -/

theorem title_always (he : Always e a) :
    Printed env (execT rtl (.title e)) wt s!"*** {wt.io.cases + 1}: {env.show_ a} ***\n\n" "" ∧
    (execT rtl (.title e) wt).2.io.cases = wt.io.cases + 1 := by
  obtain ⟨s, hs⟩ := he wt.w.u
  simp only [Printed, execT, titleT, coutV, MT.bind, cout, MT.lift, MT.silent, M.lift, hs, render_append]
  refine ⟨⟨?_, ?_⟩, trivial⟩
  · text'
  · text'

/-- `HELPER_PRINT_TEST_CASE_TITLE` -/
theorem C91_title {s : σ} (he : e wt.w.u = (.val a, s)) :
    Printed env (execT rtl (.title e)) wt s!"*** {wt.io.cases + 1}: {env.show_ a} ***\n\n" "" ∧
    (execT rtl (.title e) wt).2.io.cases = wt.io.cases + 1 :=
  title_always (rtl := rtl) (e := fun _ => e wt.w.u) (fun _ => ⟨s, he⟩)

theorem comment_always (he : Always e a) (hf : wt.w.fails + 1 < 2 ^ 31) :
    Printed env (execT rtl (.comment e)) wt s!"* COMMENT: {env.show_ a}\n" "" := by
  simp only [execT, commentT]
  printed

/-- `HELPER_PRINT_TEST_COMMENT` -/
theorem C91_comment {s : σ} (he : e wt.w.u = (.val a, s)) (hf : wt.w.fails + 1 < 2 ^ 31) :
    Printed env (execT rtl (.comment e)) wt s!"* COMMENT: {env.show_ a}\n" "" :=
  comment_always (rtl := rtl) (e := fun _ => e wt.w.u) (fun _ => ⟨s, he⟩) hf

/-- `HELPER_TEST_WARN` -/
theorem C91_warn_partial (he : Always e a) (hf : wt.w.fails + 1 < 2 ^ 31) :
    Printed env (execT rtl (.warn e)) wt s!"WARNING: {env.show_ a}\n" s!"WARNING: {env.show_ a}\n" := by
  simp only [execT, warnT]
  printed

/-- `HELPER_TEST_NOTIFY` -/
theorem C91_notify_partial (he : Always e a) (hf : wt.w.fails + 1 < 2 ^ 31) :
    Printed env (execT rtl (.notify e)) wt s!"NOTIFICATION: {env.show_ a}\n" s!"NOTIFICATION: {env.show_ a}\n" := by
  simp only [execT, warnT]
  printed

theorem print_always (he : Always e a) (hf : wt.w.fails + 1 < 2 ^ 31) :
    Printed env (execT rtl (.print l e)) wt s!"{env.src l 0} = {env.show_ a}\n\n" "" := by
  simp only [execT, printT]
  printed

/-- `HELPER_TEST_PRINT` -/
theorem C91_print {s : σ} (he : e wt.w.u = (.val a, s)) (hf : wt.w.fails + 1 < 2 ^ 31) :
    Printed env (execT rtl (.print l e)) wt s!"{env.src l 0} = {env.show_ a}\n\n" "" :=
  print_always (rtl := rtl) (e := fun _ => e wt.w.u) (fun _ => ⟨s, he⟩) hf

/-- `HELPER_TEST_SKIP` -/
theorem C91_skip : Printed env (execT rtl (.skip l : TStmt σ V)) wt
    s!"****************************************\nSKIPPING {env.src l 0}\n****************************************\n\n\n" "" := by
  simp only [Printed, execT, skipT, MT.bind, cout, MT.silent, skip, render_append]
  refine ⟨?_, ?_⟩
  · text'
  · text'

theorem construct_always (withText : Bool) (he : Always e a) (hf : wt.w.fails + 1 < 2 ^ 31) :
    Printed env (execT rtl (.construct withText l e)) wt
      ((if withText then s!"{env.src l 0} {env.src l 1}{env.src l 2}: " else s!"{env.src l 0} {env.src l 1}: ") ++
        s!"{env.src l 1}=={env.show_ a}\n\n") "" := by
  simp only [execT, constructT]
  cases withText <;> printed

/-- `HELPER_TEST_CONSTRUCT` (`withText`) and `HELPER_TEST_DEFAULT_CONSTRUCT` -/
theorem C91_construct (withText : Bool) {s : σ} (he : e wt.w.u = (.val a, s)) (hf : wt.w.fails + 1 < 2 ^ 31) :
    Printed env (execT rtl (.construct withText l e)) wt
      ((if withText then s!"{env.src l 0} {env.src l 1}{env.src l 2}: " else s!"{env.src l 0} {env.src l 1}: ") ++
        s!"{env.src l 1}=={env.show_ a}\n\n") "" :=
  construct_always (rtl := rtl) (e := fun _ => e wt.w.u) withText (fun _ => ⟨s, he⟩) hf

/-! ## Exceptions -/

/-- The expression always throws `t`. -/
def Throws (e : Exp σ α) (t : Thrown) : Prop := ∀ s, ∃ s', e s = (.thrown t, s')

/-- What `HELPER_TEST_CATCH` writes to `std::cout`. -/
def caughtText (env : Env V) : Thrown → String
  | .std n => s!"exception: \"{env.what (.std n)}\"\n\n"
  | .other _ => "unknown exception\n\n"

/-- What `HELPER_TEST_CATCH` writes to `std::cerr` after the message. -/
def throwedText (env : Env V) : Thrown → String
  | .std n => s!" throwed \"{env.what (.std n)}\".\n"
  | .other _ => " throwed an unknown exception.\n"

theorem caught_text {msg pre : List (Tok V)} {m : MT σ V Unit} {t : Thrown} {w1 : WT σ V} {p q : String}
    (hm : m { wt with io := { wt.io with out := wt.io.out ++ pre } } = (.thrown t, w1)) (hf : w1.w.fails + 1 < 2 ^ 31)
    (hp : render env msg = p) (hq : q = p) :
    render env ((cout pre ;; catchingT l msg m) wt).2.io.out = render env w1.io.out ++ caughtText env t ∧
    render env ((cout pre ;; catchingT l msg m) wt).2.io.err = render env w1.io.err ++ (place env l ++ q ++ throwedText env t) := by
  subst hq hp
  show render env (catchingT l msg m { wt with io := { wt.io with out := wt.io.out ++ pre } }).2.io.out = _ ∧
    render env (catchingT l msg m { wt with io := { wt.io with out := wt.io.out ++ pre } }).2.io.err = _
  unfold catchingT MT.tryCatch
  rw [hm]
  cases t with
  | std n =>
    simp only [MT.bind, count, MT.silent, incr, if_pos hf, cout, cerr, render_append, caughtText, throwedText]
    refine ⟨?_, ?_⟩
    · text'
    · text'
  | other n =>
    simp only [MT.bind, count, MT.silent, incr, if_pos hf, cout, cerr, render_append, caughtText, throwedText]
    refine ⟨?_, ?_⟩
    · text'
    · text'

/-- With `cout pre` first. -/
def titled (wt : WT σ V) (pre : List (Tok V)) : WT σ V := { wt with io := { wt.io with out := wt.io.out ++ pre } }

/-- `HELPER_TEST_TRY`, if the statement throws. -/
theorem C91_try {s : TStmt σ V} {t : Thrown} {w1 : WT σ V} (hs : execT rtl s (titled wt [.src l 0, .lit ": "]) = (.thrown t, w1))
    (hf : w1.w.fails + 1 < 2 ^ 31) :
    render env (execT rtl (.try_ l s) wt).2.io.out = render env w1.io.out ++ caughtText env t ∧
    render env (execT rtl (.try_ l s) wt).2.io.err =
      render env w1.io.err ++ (place env l ++ s!"Statement `{env.src l 0}'" ++ throwedText env t) := by
  refine caught_text (t := t) ?_ hf rfl (by text)
  simp only [titled] at hs
  simp only [MT.bind, hs]

/-- `HELPER_TEST_TRY`, if the statement does not throw. -/
theorem C91_try_ok {s : TStmt σ V} {w1 : WT σ V} (hs : execT rtl s (titled wt [.src l 0, .lit ": "]) = (.val (), w1)) :
    render env (execT rtl (.try_ l s) wt).2.io.out = render env w1.io.out ++ " (ok)\n\n" ∧
    (execT rtl (.try_ l s) wt).2.io.err = w1.io.err := by
  simp only [titled] at hs
  simp only [execT, tryT, catchingT, MT.tryCatch, MT.bind, cout, hs, render_append]
  exact ⟨by text', trivial⟩

/-- `HELPER_TEST_EXECUTE`, if the statement does not throw. -/
theorem C91_execute {s : TStmt σ V} {w1 : WT σ V} (hs : execT rtl s (titled wt [.src l 0, .lit ": "]) = (.val (), w1)) :
    render env (execT rtl (.execute l s) wt).2.io.out = render env w1.io.out ++ " (ok)\n\n" ∧
    (execT rtl (.execute l s) wt).2.io.err = w1.io.err := by
  simp only [titled] at hs
  simp only [execT, executeT, MT.bind, cout, hs, render_append]
  exact ⟨by text', trivial⟩

/-- The title of `HELPER_TEST_CALL`. -/
def calling (l : Nat) : List (Tok V) := [bar, .lit "CALLING ", .src l 0, .lit "\n", bar, .lit "\n"]

/-- `HELPER_TEST_CALL`, if the call ends with a standard exception. -/
theorem C91_call {s : TStmt σ V} {n : Nat} {w1 : WT σ V} (hs : execT rtl s (titled wt (calling l)) = (.thrown (.std n), w1))
    (hf : w1.w.fails + 1 < 2 ^ 31) :
    render env (calling l : List (Tok V)) =
      s!"****************************************\nCALLING {env.src l 0}\n****************************************\n\n" ∧
    render env (execT rtl (.call l s) wt).2.io.out = render env w1.io.out ++
      s!"ERROR: exception '{env.what (.std n)}' in {env.src l 0}: {env.what (.std n)}\n\n" ∧
    render env (execT rtl (.call l s) wt).2.io.err = render env w1.io.err ++
      s!"ERROR: {env.file l}:{env.line l}: calling {env.src l 0}: {env.what (.std n)}\n" := by
  simp only [titled, calling] at hs
  simp only [calling, execT, callT, MT.tryCatch, MT.bind, cout, hs, count, MT.silent, incr, if_pos hf, cerr, render_append]
  refine ⟨by text', by text', by text'⟩

/-- `HELPER_TEST_CALL`, if the call does not end with a standard exception. -/
theorem C91_call_ok {s : TStmt σ V} {o : R Unit} {w1 : WT σ V} (hs : execT rtl s (titled wt (calling l)) = (o, w1))
    (ho : ∀ n, o ≠ .thrown (.std n)) : execT rtl (.call l s) wt = (o, w1) := by
  simp only [titled, calling] at hs
  simp only [execT, callT, MT.tryCatch, MT.bind, cout, hs]
  match o with
  | .val () => rfl
  | .overflow => rfl
  | .thrown (.other _) => rfl
  | .thrown (.std n) => exact absurd rfl (ho n)

/-- `HELPER_TEST_CLASS` -/
theorem C91_testClass {s : TStmt σ V} : ∃ wt', execT rtl (.testClass l s) wt = execT rtl s wt' ∧ wt'.w = wt.w ∧
    wt'.io.cls = some l ∧ wt'.io.err = wt.io.err ∧ render env wt'.io.out = render env wt.io.out ++
      s!"****************************************\nTESTING CLASS {env.src l 0}\n****************************************\n\n" := by
  refine ⟨_, rfl, rfl, rfl, rfl, ?_⟩
  simp only [render_append]
  text'

def caughtTok : Thrown → List (Tok V)
  | .std n => [.lit "exception: \"", .what (.std n), .lit "\"\n", .lit "\n"]
  | .other _ => [.lit "unknown exception\n", .lit "\n"]

def throwedTok : Thrown → List (Tok V)
  | .std n => [.lit " throwed \"", .what (.std n), .lit "\".", .lit "\n"]
  | .other _ => [.lit " throwed an unknown exception.", .lit "\n"]

theorem render_caught (t : Thrown) : render env (caughtTok t) = caughtText env t := by
  cases t <;> simp only [caughtTok, caughtText] <;> text

theorem render_throwed (t : Thrown) : render env (throwedTok t) = throwedText env t := by
  cases t <;> simp only [throwedTok, throwedText] <;> text

theorem render_here : render env (here l) = place env l := by text

theorem Adds.caught {msg : List (Tok V)} {y : Exp σ α} {f : α → MT σ V Unit} {t : Thrown} (hy : Throws y t) :
    Adds 1 (catchingT l msg ((MT.lift y).bind f)) (caughtTok t) (here l ++ msg ++ throwedTok t) := by
  intro wt hf
  obtain ⟨s, hs⟩ := hy wt.w.u
  cases t <;> simp only [catchingT, MT.tryCatch, MT.bind, MT.lift, MT.silent, M.lift, hs, TestC.count, incr, if_pos hf, TestC.cout,
    TestC.cerr] <;> exact ⟨rfl, rfl⟩

theorem Adds.uncaught {c : Nat} {msg : List (Tok V)} {y : Exp σ α} {f : α → List (Tok V)} {v : α} (hy : Always y v) :
    Adds c (catchingT l msg ((MT.lift y).bind fun v => TestC.cout (f v))) (f v) [] := by
  intro wt hf
  obtain ⟨s, hs⟩ := hy wt.w.u
  simp only [catchingT, MT.tryCatch, MT.bind, MT.lift, MT.silent, M.lift, hs, TestC.cout, List.append_nil]
  exact ⟨trivial, trivial⟩

theorem evaluate_always (he : Always e a) (hf : wt.w.fails + 1 < 2 ^ 31) :
    Printed env (execT rtl (.evaluate l e)) wt s!"{env.src l 0}: {env.show_ a}\n\n" "" := by
  simp only [execT, evaluateT, coutV, MT.assoc, cout_cout]
  apply Printed.intro hf (.cout (.uncaught he))
  · text
  · text

/-- `HELPER_TEST_EVALUATE` -/
theorem C91_evaluate {s : σ} (he : e wt.w.u = (.val a, s)) (hf : wt.w.fails + 1 < 2 ^ 31) :
    Printed env (execT rtl (.evaluate l e)) wt s!"{env.src l 0}: {env.show_ a}\n\n" "" :=
  evaluate_always (rtl := rtl) (e := fun _ => e wt.w.u) (fun _ => ⟨s, he⟩) hf

theorem evaluate_throws_always {t : Thrown} (he : Throws e t) (hf : wt.w.fails + 1 < 2 ^ 31) :
    Printed env (execT rtl (.evaluate l e)) wt (s!"{env.src l 0}: " ++ caughtText env t)
      (place env l ++ s!"Expression `{env.src l 0}'" ++ throwedText env t) := by
  simp only [execT, evaluateT, coutV, MT.assoc, cout_cout]
  apply Printed.intro hf (.cout (.caught he))
  · rw [render_append, render_caught]; congr 1 <;> text
  · rw [render_append, render_append, render_throwed, render_here]; congr 2 <;> text

theorem C91_evaluate_throws {t : Thrown} {s : σ} (he : e wt.w.u = (.thrown t, s)) (hf : wt.w.fails + 1 < 2 ^ 31) :
    Printed env (execT rtl (.evaluate l e)) wt (s!"{env.src l 0}: " ++ caughtText env t)
      (place env l ++ s!"Expression `{env.src l 0}'" ++ throwedText env t) :=
  evaluate_throws_always (rtl := rtl) (e := fun _ => e wt.w.u) (fun _ => ⟨s, he⟩) hf

theorem assign_always (he : Always e a) (hf : wt.w.fails + 1 < 2 ^ 31) :
    Printed env (execT rtl (.assign l e)) wt s!"{env.src l 0} = {env.src l 1}: {env.show_ a}\n\n" "" := by
  simp only [execT, assignT, coutV, MT.assoc, cout_cout]
  apply Printed.intro hf (.cout (.uncaught he))
  · text
  · text

/-- `HELPER_TEST_ASSIGN` -/
theorem C91_assign {s : σ} (he : e wt.w.u = (.val a, s)) (hf : wt.w.fails + 1 < 2 ^ 31) :
    Printed env (execT rtl (.assign l e)) wt s!"{env.src l 0} = {env.src l 1}: {env.show_ a}\n\n" "" :=
  assign_always (rtl := rtl) (e := fun _ => e wt.w.u) (fun _ => ⟨s, he⟩) hf

theorem assign_throws_always {t : Thrown} (he : Throws e t) (hf : wt.w.fails + 1 < 2 ^ 31) :
    Printed env (execT rtl (.assign l e)) wt (s!"{env.src l 0} = {env.src l 1}: " ++ caughtText env t)
      (place env l ++ s!"Assignment `{env.src l 0}={env.src l 1}'" ++ throwedText env t) := by
  simp only [execT, assignT, coutV, MT.assoc, cout_cout]
  apply Printed.intro hf (.cout (.caught he))
  · rw [render_append, render_caught]; congr 1; text
  · rw [render_append, render_append, render_throwed, render_here]; congr 2; text

theorem C91_assign_throws {t : Thrown} {s : σ} (he : e wt.w.u = (.thrown t, s)) (hf : wt.w.fails + 1 < 2 ^ 31) :
    Printed env (execT rtl (.assign l e)) wt (s!"{env.src l 0} = {env.src l 1}: " ++ caughtText env t)
      (place env l ++ s!"Assignment `{env.src l 0}={env.src l 1}'" ++ throwedText env t) :=
  assign_throws_always (rtl := rtl) (e := fun _ => e wt.w.u) (fun _ => ⟨s, he⟩) hf

/-- The titles of the macros that declare variables. -/
def howTitle (env : Env V) (l : Nat) : How → String
  | .declare => s!"{env.src l 0} {env.src l 1}: "
  | .named => s!"{env.src l 0} {env.src l 1} = {env.src l 0}::{env.src l 2}: "
  | .assign => s!"{env.src l 0} {env.src l 1} = {env.src l 2}: "

/-- What they call themselves; there is no space between the class and the variable in the first. -/
def howMessage (env : Env V) (l : Nat) : How → String
  | .declare => s!"Constructor `{env.src l 0}{env.src l 1}'"
  | .named => s!"Named constructor `{env.src l 1}={env.src l 0}::{env.src l 2}'"
  | .assign => s!"Assignment `{env.src l 1}={env.src l 2}'"

theorem render_title (how : How) : render env (how.title l) = howTitle env l how := by
  cases how <;> simp only [howTitle, How.title] <;> text

theorem render_msg (how : How) : render env (how.msg l) = howMessage env l how := by
  cases how
  · show "Constructor `" ++ (env.src l 0 ++ ("" ++ (env.src l 1 ++ ("'" ++ "")))) = s!"Constructor `{env.src l 0}{env.src l 1}'"
    simp only [toString, String.append_assoc, String.empty_append, String.append_empty]
  · show "Named constructor `" ++ (env.src l 1 ++ ("=" ++ (env.src l 0 ++ ("::" ++ (env.src l 2 ++ ("'" ++ "")))))) =
      s!"Named constructor `{env.src l 1}={env.src l 0}::{env.src l 2}'"
    simp only [toString, String.append_assoc, String.append_empty]
  · show "Assignment `" ++ (env.src l 1 ++ ("=" ++ (env.src l 2 ++ ("'" ++ "")))) = s!"Assignment `{env.src l 1}={env.src l 2}'"
    simp only [toString, String.append_assoc, String.append_empty]

theorem Adds.first {c : Nat} {m k : MT σ V Unit} {o e o' e' : List (Tok V)} (hm : Adds c m o e) (hk : Adds 0 k o' e')
    (hv : ∀ wt : WT σ V, wt.w.fails + c < 2 ^ 31 → (m wt).1 = .val () ∧ (m wt).2.w.fails + 0 < 2 ^ 31) :
    Adds c (m ;; k) (o ++ o') (e ++ e') := by
  intro wt hf
  obtain ⟨h1, h2⟩ := hm wt hf
  obtain ⟨h3, h4⟩ := hv wt hf
  simp only [MT.bind]
  rcases he : m wt with ⟨q, w1⟩
  rw [he] at h1 h2 h3 h4
  simp only at h3
  subst h3
  obtain ⟨h5, h6⟩ := hk w1 h4
  exact ⟨by simp only; rw [h5, h1, List.append_assoc], by simp only; rw [h6, h2, List.append_assoc]⟩

/-- `HELPER_TEST_DECLARE`, `HELPER_TEST_NAMED_CONSTRUCT`, `HELPER_TEST_ASSIGN_CONSTRUCT` -/
theorem C91_declare_partial (how : How) (he : Always e a) (hf : wt.w.fails + 1 < 2 ^ 31) :
    Printed env (execT rtl (.declare how l e)) wt (howTitle env l how ++ s!"{env.src l 1}=={env.show_ a}\n\n") "" := by
  simp only [execT, declareT]
  apply Printed.intro hf (.cout (.first (.uncaught he) (.lift he .done) ?_))
  · rw [List.append_nil, render_append, render_title]; congr 1; text
  · text
  · intro wt hf
    obtain ⟨s, hs⟩ := he wt.w.u
    simp only [catchingT, MT.tryCatch, MT.bind, MT.lift, MT.silent, M.lift, hs, TestC.cout]
    exact ⟨trivial, by omega⟩

theorem C91_declare_throws_partial (how : How) {t : Thrown} (he : Throws e t) (hf : wt.w.fails + 1 < 2 ^ 31) :
    Printed env (execT rtl (.declare how l e)) wt (howTitle env l how ++ caughtText env t)
      (place env l ++ howMessage env l how ++ throwedText env t) := by
  simp only [execT, declareT]
  apply Printed.intro hf (.cout (.first (.caught he) (.throws he) ?_))
  · rw [List.append_nil, render_append, render_caught, render_title]
  · rw [List.append_nil, render_append, render_append, render_throwed, render_here, render_msg]
  · intro wt hf
    obtain ⟨s, hs⟩ := he wt.w.u
    cases t <;> simp only [catchingT, MT.tryCatch, MT.bind, MT.lift, MT.silent, M.lift, hs, count, incr, if_pos hf, TestC.cout, cerr] <;>
      exact ⟨trivial, hf⟩

/-- `HELPER_TEST_THROWS`, if the statement does not throw: the statement is not named on `std::cerr`. -/
theorem C91_throws_none {err : Thrown → Bool} {s : TStmt σ V} {w1 : WT σ V}
    (hs : execT rtl s (titled wt [.src l 0, .lit ": "]) = (.val (), w1)) (hf : w1.w.fails + 1 < 2 ^ 31) :
    render env (execT rtl (.throws l err s) wt).2.io.out = render env w1.io.out ++
      s!"\nERROR: expected {env.src l 1}; no exception thrown\n" ∧
    render env (execT rtl (.throws l err s) wt).2.io.err = render env w1.io.err ++
      (place env l ++ s!"expected {env.src l 1}; no exception thrown.\n") := by
  simp only [titled] at hs
  simp only [execT, throwsT, MT.tryCatch, MT.bind, cout, hs, count, MT.silent, incr, if_pos hf, cerr, render_append]
  exact ⟨by text', by text'⟩

/-- `HELPER_TEST_THROWS`, if the statement throws what is expected. -/
theorem C91_throws_expected {err : Thrown → Bool} {s : TStmt σ V} {w1 : WT σ V} {t : Thrown}
    (hs : execT rtl s (titled wt [.src l 0, .lit ": "]) = (.thrown t, w1)) (ht : err t = true) :
    render env (execT rtl (.throws l err s) wt).2.io.out = render env w1.io.out ++ s!"caught {env.src l 1} as expected\n\n" ∧
    (execT rtl (.throws l err s) wt).2.io.err = w1.io.err := by
  simp only [titled] at hs
  simp only [execT, throwsT, MT.tryCatch, MT.bind, cout, hs, ht, if_true, render_append]
  exact ⟨by text', trivial⟩

/-- `HELPER_TEST_THROWS`, if the statement throws another standard exception. -/
theorem C91_throws_other {err : Thrown → Bool} {s : TStmt σ V} {w1 : WT σ V} {n : Nat}
    (hs : execT rtl s (titled wt [.src l 0, .lit ": "]) = (.thrown (.std n), w1)) (ht : err (.std n) = false)
    (hf : w1.w.fails + 1 < 2 ^ 31) :
    render env (execT rtl (.throws l err s) wt).2.io.out = render env w1.io.out ++
      s!"\nERROR: caught exception {env.what (.std n)}; expected {env.src l 1}\n" ∧
    render env (execT rtl (.throws l err s) wt).2.io.err = render env w1.io.err ++
      (place env l ++ s!"caught exception {env.what (.std n)}; expected {env.src l 1}\n") := by
  simp only [titled] at hs
  simp only [execT, throwsT, MT.tryCatch, MT.bind, cout, hs, ht, Bool.false_eq_true, if_false, count, MT.silent, incr, if_pos hf, cerr,
    render_append]
  exact ⟨by text', by text'⟩

/-- `HELPER_TEST_FAIL` -/
theorem C91_fail_none {s : TStmt σ V} {w1 : WT σ V}
    (hs : execT rtl s (titled wt [.src l 0, .lit ": "]) = (.val (), w1)) (hf : w1.w.fails + 1 < 2 ^ 31) :
    render env (execT rtl (.fail l s) wt).2.io.out = render env w1.io.out ++ "\nERROR: expected exception; none thrown\n" ∧
    render env (execT rtl (.fail l s) wt).2.io.err = render env w1.io.err ++
      (place env l ++ "expected exception; no exception thrown.\n") := by
  simp only [titled] at hs
  simp only [execT, failT, MT.tryCatch, MT.bind, cout, hs, count, MT.silent, incr, if_pos hf, cerr, render_append]
  exact ⟨by text', by text'⟩

theorem C91_fail_thrown {s : TStmt σ V} {w1 : WT σ V} {t : Thrown}
    (hs : execT rtl s (titled wt [.src l 0, .lit ": "]) = (.thrown t, w1)) :
    render env (execT rtl (.fail l s) wt).2.io.out = render env w1.io.out ++ "caught exception as expected\n\n" ∧
    (execT rtl (.fail l s) wt).2.io.err = w1.io.err := by
  simp only [titled] at hs
  simp only [execT, failT, MT.tryCatch, MT.bind, cout, hs, render_append]
  exact ⟨by text', trivial⟩

end

/-! ## What is not so -/

/-- `i++` -/
def next : Exp Nat Nat := fun s => (.val s, s + 1)

/-- An environment for examples. -/
def sampleEnv : Env Nat where
  file _ := "test_sample.cpp"
  line l := l
  func _ := "test"
  pretty _ := "void test()"
  src _ k := if k = 0 then "i++" else "1"
  type _ := "int"
  show_ := toString
  what _ := "bad"

/-- C91 is false in general: the expressions are evaluated again for the message, so that it shows values that were not
compared: here `0 == 1` fails, and the message tells that `2 == 1` failed. -/
theorem C91_values_refuted : Printed sampleEnv (execT false (.equal 7 (fun a b => .pure (a == b)) next (.pure 1)))
    ⟨⟨0, 0, 0⟩, ⟨[], [], none, 0⟩⟩ "i++ == 1: \nERROR: i++:\n           1\n     : 1:\n           1\n"
    "ERROR: test_sample.cpp:7: void test(): Equality `i++ == 1' failed; i++=2; 1=1\n" := by
  refine ⟨?_, ?_⟩ <;> decide +kernel

example : Always (Exp.pure 1 : Exp Nat Nat) 1 ∧ Always (Exp.pure (1 == 2) : Exp Nat Bool) false ∧ (0 + 1 < 2 ^ 31) :=
  ⟨fun s => ⟨s, rfl⟩, fun s => ⟨s, rfl⟩, by decide⟩

example : Throws (fun s => (.thrown (.std 3), s) : Exp Nat Nat) (.std 3) := fun s => ⟨s, rfl⟩

end Helper.TestC
