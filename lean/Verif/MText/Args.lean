import Verif.Basic
set_option linter.unusedSectionVars false
/-!
# Property C114: the arguments of macros

How the preprocessor finds the arguments of the macros of macros.hpp and test.hpp ([cpp.replace.general], [cpp.subst]), and what `#parameter` gives
([cpp.stringize]). Only the text of the invocation is looked at: commas within parentheses do not separate arguments, those within angle
brackets or braces do.
-/
namespace Helper.MText.Args

/-- Preprocessing tokens. Literals are given by their delimiter and the characters between; raw strings are left out. -/
inductive Tok where
  | lpar | rpar | comma
  | other (s : List Char)
  | lit (q : Char) (s : List Char)
deriving DecidableEq, Repr

/-- A token, and whether there is white space before it. -/
structure PTok where
  space : Bool
  tok : Tok
deriving DecidableEq, Repr

/-- The source characters of a token. -/
def Tok.spelling : Tok → List Char
  | .lpar => ['(']
  | .rpar => [')']
  | .comma => [',']
  | .other s => s
  | .lit q s => q :: (s ++ [q])

/-- Reading of the arguments after the opening parenthesis, up to the matching one; `cur` is the argument being read. Nothing if there is
no matching parenthesis. The result is the list of arguments and the text after the invocation. -/
def collect (depth : Nat) (cur : List PTok) : List PTok → Option (List (List PTok) × List PTok)
  | [] => none
  | t :: r =>
    match t.tok with
    | .lpar => collect (depth + 1) (cur ++ [t]) r
    | .rpar =>
      match depth with
      | 0 => some ([cur], r)
      | d + 1 => collect d (cur ++ [t]) r
    | .comma =>
      if depth = 0 then (collect 0 [] r).map (fun p => (cur :: p.1, p.2)) else collect depth (cur ++ [t]) r
    | .other _ => collect depth (cur ++ [t]) r
    | .lit _ _ => collect depth (cur ++ [t]) r

/-- The parameters of a macro: a number of names, or `...` only. -/
inductive Params where
  | fixed (n : Nat)
  | variadic
deriving DecidableEq, Repr

/-- The macros with parameters: macros.hpp:42-173 and test.hpp:59-600. -/
def macros : List (String × Params) :=
  [("HELPER_USING_CONSTRUCTORS", .fixed 2), ("HELPER_THROW", .fixed 3), ("HELPER_ASSERT", .fixed 1), ("HELPER_DEBUG_ASSERT_MSG", .fixed 2),
   ("HELPER_DEBUG_ASSERT", .fixed 1), ("HELPER_PRECONDITION_MSG", .fixed 2), ("HELPER_PRECONDITION", .fixed 1), ("HELPER_DEBUG_PRECONDITION", .fixed 1),
   ("HELPER_FAIL_MSG", .fixed 1), ("HELPER_ASSERT_MSG", .fixed 2), ("HELPER_ASSERT_EQUAL", .fixed 2), ("HELPER_DEPRECATED", .fixed 2),
   ("HELPER_NOTIFY", .fixed 1), ("HELPER_WARN", .fixed 1), ("HELPER_WARN_ONCE", .fixed 1), ("HELPER_ERROR", .fixed 1),
   ("HELPER_TEST_CLASS", .fixed 2), ("HELPER_PRINT_TEST_CASE_TITLE", .fixed 1), ("HELPER_PRINT_TEST_COMMENT", .fixed 1), ("HELPER_TEST_WARN", .fixed 1),
   ("HELPER_TEST_NOTIFY", .fixed 1), ("HELPER_TEST_CATCH", .fixed 1), ("HELPER_TEST_CALL", .fixed 1), ("HELPER_TEST_SKIP", .fixed 1),
   ("HELPER_TEST_EXECUTE", .fixed 1), ("HELPER_TEST_TRY", .fixed 1), ("HELPER_TEST_PRINT", .fixed 1), ("HELPER_TEST_EVALUATE", .fixed 1),
   ("HELPER_TEST_ASSERT", .fixed 1), ("HELPER_TEST_CHECK_WARN", .fixed 2), ("HELPER_TEST_CHECK", .fixed 2), ("HELPER_TEST_SAME", .fixed 2),
   ("HELPER_TEST_SAME_AS", .fixed 2), ("HELPER_TEST_EQUAL", .fixed 2), ("HELPER_TEST_NOT_EQUAL", .fixed 2), ("HELPER_TEST_EQUALS", .fixed 2),
   ("HELPER_TEST_WITHIN", .fixed 3), ("HELPER_TEST_LESS", .fixed 2), ("HELPER_TEST_UNARY_PREDICATE", .fixed 2), ("HELPER_TEST_BINARY_PREDICATE", .fixed 3),
   ("HELPER_TEST_COMPARE", .fixed 3), ("HELPER_TEST_RESULT_COMPARE", .fixed 4), ("HELPER_TEST_DECLARE", .fixed 2), ("HELPER_TEST_CONSTRUCT", .fixed 3),
   ("HELPER_TEST_DEFAULT_CONSTRUCT", .fixed 2), ("HELPER_TEST_NAMED_CONSTRUCT", .fixed 3), ("HELPER_TEST_ASSIGN_CONSTRUCT", .fixed 3),
   ("HELPER_TEST_ASSIGN", .fixed 2), ("HELPER_TEST_THROWS", .fixed 2), ("HELPER_TEST_FAIL", .fixed 1), ("HELPER_TEST_STATIC_ASSERT", .variadic),
   ("HELPER_TEST_CONCEPT", .variadic), ("HELPER_TEST_SAME_TYPE", .variadic), ("HELPER_TEST_EQUIVALENT_TYPE", .variadic),
   ("HELPER_TEST_GRID_TREE_SUBPAVING_ITERATOR", .fixed 3), ("HELPER_CLEAN_TEST_VECTOR", .fixed 1)]

/-- Arguments with the commas between them, as for `__VA_ARGS__`. The space before a comma is forgotten by `collect`, so the texts of the commas are
given here. -/
def commaJoin : List PTok → List (Bool × List PTok) → List PTok
  | a, [] => a
  | a, (sp, b) :: r => a ++ ⟨sp, .comma⟩ :: commaJoin b r

/-- Reading of the tokens for `...`, which include the commas. -/
def collectVa (depth : Nat) (cur : List PTok) : List PTok → Option (List PTok × List PTok)
  | [] => none
  | t :: r =>
    match t.tok with
    | .lpar => collectVa (depth + 1) (cur ++ [t]) r
    | .rpar =>
      match depth with
      | 0 => some (cur, r)
      | d + 1 => collectVa d (cur ++ [t]) r
    | .comma => collectVa depth (cur ++ [t]) r
    | .other _ => collectVa depth (cur ++ [t]) r
    | .lit _ _ => collectVa depth (cur ++ [t]) r

/-- An invocation: the arguments for the parameters, and the text that follows. Ill-formed (nothing) with a wrong number of arguments. -/
def invoke (ps : Params) (text : List PTok) : Option (List (List PTok) × List PTok) :=
  match ps with
  | .fixed n =>
    match collect 0 [] text with
    | none => none
    | some (args, r) => if args.length = n then some (args, r) else none
  | .variadic => (collectVa 0 [] text).map (fun p => ([p.1], p.2))

/-- [cpp.stringize]: a backslash goes before each quotation mark and each backslash. -/
def escape : List Char → List Char
  | [] => []
  | c :: t => if c = '"' ∨ c = '\\' then '\\' :: c :: escape t else c :: escape t

/-- `#parameter`: white space between tokens becomes one blank, at the ends there is none; literals are escaped. -/
def stringize : List PTok → List Char
  | [] => []
  | t :: r => piece t.tok ++ r.flatMap (fun u => (if u.space then [' '] else []) ++ piece u.tok)
where
  piece : Tok → List Char
    | .lit q s => escape (q :: (s ++ [q]))
    | t => t.spelling

/-- The value of a string literal with these characters between its quotation marks; only the escapes that can arise here, and `\n`. Nothing if the
literal would end early or an escape is unknown. -/
def strValue : List Char → Option (List Char)
  | [] => some []
  | '"' :: _ => none
  | '\\' :: '"' :: r => (strValue r).map ('"' :: ·)
  | '\\' :: '\\' :: r => (strValue r).map ('\\' :: ·)
  | '\\' :: 'n' :: r => (strValue r).map ('\n' :: ·)
  | '\\' :: _ => none
  | c :: r => (strValue r).map (c :: ·)

/-! ## Specification -/

/-- Parentheses match; commas may be anywhere. -/
inductive Balanced : List PTok → Prop where
  | nil : Balanced []
  | tok (t : PTok) {b : List PTok} : t.tok ≠ .lpar → t.tok ≠ .rpar → Balanced b → Balanced (t :: b)
  | group (s1 s2 : Bool) {b c : List PTok} : Balanced b → Balanced c → Balanced (⟨s1, .lpar⟩ :: (b ++ ⟨s2, .rpar⟩ :: c))

/-- Parentheses match, and all commas are within parentheses. -/
inductive Shielded : List PTok → Prop where
  | nil : Shielded []
  | tok (t : PTok) {b : List PTok} : t.tok ≠ .lpar → t.tok ≠ .rpar → t.tok ≠ .comma → Shielded b → Shielded (t :: b)
  | group (s1 s2 : Bool) {b c : List PTok} : Balanced b → Shielded c → Shielded (⟨s1, .lpar⟩ :: (b ++ ⟨s2, .rpar⟩ :: c))

/-- Tokens other than literals contain no quotation marks and no backslashes. -/
def Tok.Plain : Tok → Prop
  | .other s => ∀ c ∈ s, c ≠ '"' ∧ c ≠ '\\'
  | _ => True

/-- The text as written, with white space as one blank. -/
def written : List PTok → List Char
  | [] => []
  | t :: r => t.tok.spelling ++ r.flatMap (fun u => (if u.space then [' '] else []) ++ u.tok.spelling)

/-! ## Lemmas -/

theorem collect_balanced {b : List PTok} (h : Balanced b) : ∀ (d : Nat) (cur r : List PTok),
    collect (d + 1) cur (b ++ r) = collect (d + 1) (cur ++ b) r := by
  induction h with
  | nil => intro d cur r; simp
  | tok t h1 h2 _ ih =>
    intro d cur r
    have : ∀ x : List PTok, cur ++ (t :: x) = (cur ++ [t]) ++ x := fun x => by simp
    rw [this, ← ih d (cur ++ [t]) r, List.cons_append, collect]
    cases ht : t.tok with
    | lpar => exact absurd ht h1
    | rpar => exact absurd ht h2
    | comma => simp
    | other s => rfl
    | lit q s => rfl
  | group s1 s2 _ _ ihb ihc =>
    rename_i b c _ _
    intro d cur r
    have e1 : (⟨s1, .lpar⟩ :: (b ++ ⟨s2, .rpar⟩ :: c)) ++ r = (⟨s1, .lpar⟩ : PTok) :: (b ++ (⟨s2, .rpar⟩ :: (c ++ r))) := by simp
    have e2 : cur ++ (⟨s1, .lpar⟩ :: (b ++ ⟨s2, .rpar⟩ :: c)) = (((cur ++ [⟨s1, .lpar⟩]) ++ b) ++ [⟨s2, .rpar⟩]) ++ c := by simp
    rw [e1, e2, ← ihc d _ r, collect]
    simp only
    rw [ihb (d + 1)]
    rw [collect]

theorem collect_shielded {b : List PTok} (h : Shielded b) : ∀ (cur r : List PTok),
    collect 0 cur (b ++ r) = collect 0 (cur ++ b) r := by
  induction h with
  | nil => intro cur r; simp
  | tok t h1 h2 h3 _ ih =>
    intro cur r
    have : ∀ x : List PTok, cur ++ (t :: x) = (cur ++ [t]) ++ x := fun x => by simp
    rw [this, ← ih (cur ++ [t]) r, List.cons_append, collect]
    cases ht : t.tok with
    | lpar => exact absurd ht h1
    | rpar => exact absurd ht h2
    | comma => exact absurd ht h3
    | other s => rfl
    | lit q s => rfl
  | group s1 s2 hb _ ihc =>
    rename_i b c _
    intro cur r
    have e1 : (⟨s1, .lpar⟩ :: (b ++ ⟨s2, .rpar⟩ :: c)) ++ r = (⟨s1, .lpar⟩ : PTok) :: (b ++ (⟨s2, .rpar⟩ :: (c ++ r))) := by simp
    have e2 : cur ++ (⟨s1, .lpar⟩ :: (b ++ ⟨s2, .rpar⟩ :: c)) = (((cur ++ [⟨s1, .lpar⟩]) ++ b) ++ [⟨s2, .rpar⟩]) ++ c := by simp
    rw [e1, e2, ← ihc _ r, collect]
    simp only
    rw [collect_balanced hb 0]
    rw [collect]

theorem collect_join : ∀ (r : List (Bool × List PTok)) (a : List PTok), Shielded a → (∀ p ∈ r, Shielded p.2) → ∀ (sp : Bool) (rest : List PTok),
    collect 0 [] (commaJoin a r ++ ⟨sp, .rpar⟩ :: rest) = some (a :: r.map (·.2), rest) := by
  intro r
  induction r with
  | nil =>
    intro a ha _ sp rest
    rw [commaJoin, collect_shielded ha, collect]
    simp
  | cons p r ih =>
    obtain ⟨s, b⟩ := p
    intro a ha hr sp rest
    rw [commaJoin, List.append_assoc, collect_shielded ha, List.cons_append, collect]
    simp only [if_true, List.nil_append]
    rw [ih b (hr (s, b) (by simp)) (fun q hq => hr q (by simp [hq]))]
    simp

theorem shielded_balanced {b : List PTok} (h : Shielded b) : Balanced b := by
  induction h with
  | nil => exact .nil
  | tok t h1 h2 _ _ ih => exact .tok t h1 h2 ih
  | group s1 s2 hb _ ih => exact .group s1 s2 hb ih

theorem shielded_append {a b : List PTok} (ha : Shielded a) (hb : Shielded b) : Shielded (a ++ b) := by
  induction ha with
  | nil => exact hb
  | tok t h1 h2 h3 _ ih => exact .tok t h1 h2 h3 ih
  | group s1 s2 hb' _ ih =>
    have := Shielded.group s1 s2 hb' ih
    simpa using this

/-- A balanced text consists of shielded parts with commas between them. -/
theorem balanced_parts {b : List PTok} (h : Balanced b) : ∃ a r, Shielded a ∧ (∀ p ∈ r, Shielded p.2) ∧ b = commaJoin a r := by
  induction h with
  | nil => exact ⟨[], [], .nil, by simp, rfl⟩
  | tok t h1 h2 _ ih =>
    obtain ⟨a, r, ha, hr, rfl⟩ := ih
    by_cases h3 : t.tok = .comma
    · refine ⟨[], (t.space, a) :: r, .nil, ?_, ?_⟩
      · intro p hp
        rcases List.mem_cons.1 hp with rfl | hp
        · exact ha
        · exact hr p hp
      · have : t = ⟨t.space, .comma⟩ := by cases t; simp_all
        rw [commaJoin, List.nil_append, ← this]
    · refine ⟨t :: a, r, .tok t h1 h2 h3 ha, hr, ?_⟩
      cases r with
      | nil => rfl
      | cons p r => simp [commaJoin]
  | group s1 s2 hb _ _ ih =>
    rename_i b c _ _
    obtain ⟨a, r, ha, hr, rfl⟩ := ih
    refine ⟨⟨s1, .lpar⟩ :: (b ++ ⟨s2, .rpar⟩ :: a), r, .group s1 s2 hb ha, hr, ?_⟩
    cases r with
    | nil => rfl
    | cons p r => simp [commaJoin]

theorem commaJoin_append (a : List PTok) (r : List (Bool × List PTok)) (s : Bool) (b : List PTok) (q : List (Bool × List PTok)) :
    commaJoin a (r ++ (s, b) :: q) = commaJoin a r ++ ⟨s, .comma⟩ :: commaJoin b q := by
  induction r generalizing a with
  | nil => rfl
  | cons p r ih => simp [commaJoin, ih]

/-- Arguments of which some has a bare comma are taken for more. -/
theorem parts_more : ∀ (r : List (Bool × List PTok)) (a : List PTok), Balanced a → (∀ p ∈ r, Balanced p.2) →
    ∃ a' r', Shielded a' ∧ (∀ p ∈ r', Shielded p.2) ∧ commaJoin a r = commaJoin a' r' ∧ r.length ≤ r'.length ∧
      (r'.length = r.length → Shielded a ∧ ∀ p ∈ r, Shielded p.2) := by
  intro r
  induction r with
  | nil =>
    intro a ha _
    obtain ⟨a', r', h1, h2, h3⟩ := balanced_parts ha
    refine ⟨a', r', h1, h2, h3, by simp, fun h => ?_⟩
    have : r' = [] := List.length_eq_zero_iff.1 h
    subst this
    rw [commaJoin] at h3
    exact ⟨h3 ▸ h1, by simp⟩
  | cons p r ih =>
    obtain ⟨s, b⟩ := p
    intro a ha hr
    obtain ⟨a', r', h1, h2, h3⟩ := balanced_parts ha
    obtain ⟨b', q', k1, k2, k3, k4, k5⟩ := ih b (hr (s, b) (by simp)) fun p hp => hr p (by simp [hp])
    refine ⟨a', r' ++ (s, b') :: q', h1, ?_, ?_, by simp; omega, ?_⟩
    · intro p hp
      rcases List.mem_append.1 hp with hp | hp
      · exact h2 p hp
      · rcases List.mem_cons.1 hp with rfl | hp
        · exact k1
        · exact k2 p hp
    · rw [commaJoin, commaJoin_append, k3, h3]
    · intro h
      simp only [List.length_append, List.length_cons] at h
      have hr0 : r' = [] := List.length_eq_zero_iff.1 (by omega)
      subst hr0
      obtain ⟨kb, kr⟩ := k5 (by simp at h; omega)
      rw [commaJoin] at h3
      refine ⟨h3 ▸ h1, ?_⟩
      intro p hp
      rcases List.mem_cons.1 hp with rfl | hp
      · exact kb
      · exact kr p hp

theorem collectVa_lpar (d : Nat) (cur : List PTok) (sp : Bool) (r : List PTok) :
    collectVa d cur (⟨sp, .lpar⟩ :: r) = collectVa (d + 1) (cur ++ [⟨sp, .lpar⟩]) r := by cases d <;> rfl

theorem collectVa_rpar (d : Nat) (cur : List PTok) (sp : Bool) (r : List PTok) :
    collectVa (d + 1) cur (⟨sp, .rpar⟩ :: r) = collectVa d (cur ++ [⟨sp, .rpar⟩]) r := rfl

theorem collectVa_end (cur : List PTok) (sp : Bool) (r : List PTok) : collectVa 0 cur (⟨sp, .rpar⟩ :: r) = some (cur, r) := rfl

theorem collectVa_balanced {b : List PTok} (h : Balanced b) : ∀ (d : Nat) (cur r : List PTok),
    collectVa d cur (b ++ r) = collectVa d (cur ++ b) r := by
  induction h with
  | nil => intro d cur r; simp
  | tok t h1 h2 _ ih =>
    intro d cur r
    have : ∀ x : List PTok, cur ++ (t :: x) = (cur ++ [t]) ++ x := fun x => by simp
    rw [this, ← ih d (cur ++ [t]) r, List.cons_append, collectVa.eq_def]
    cases ht : t.tok with
    | lpar => exact absurd ht h1
    | rpar => exact absurd ht h2
    | comma => simp only [ht]
    | other s => simp only [ht]
    | lit q s => simp only [ht]
  | group s1 s2 _ _ ihb ihc =>
    rename_i b c _ _
    intro d cur r
    have e1 : (⟨s1, .lpar⟩ :: (b ++ ⟨s2, .rpar⟩ :: c)) ++ r = (⟨s1, .lpar⟩ : PTok) :: (b ++ (⟨s2, .rpar⟩ :: (c ++ r))) := by simp
    have e2 : cur ++ (⟨s1, .lpar⟩ :: (b ++ ⟨s2, .rpar⟩ :: c)) = (((cur ++ [⟨s1, .lpar⟩]) ++ b) ++ [⟨s2, .rpar⟩]) ++ c := by simp
    rw [e1, e2, ← ihc d _ r, collectVa_lpar, ihb (d + 1), collectVa_rpar]

/-! ## C114 -/

/-- C114: arguments whose commas are all within parentheses go to the parameters one by one, and the text after the invocation is left. -/
theorem C114_args_partial (n : Nat) (a : List PTok) (r : List (Bool × List PTok)) (ha : Shielded a) (hr : ∀ p ∈ r, Shielded p.2) (hn : r.length + 1 = n)
    (sp : Bool) (rest : List PTok) :
    invoke (.fixed n) (commaJoin a r ++ ⟨sp, .rpar⟩ :: rest) = some (a :: r.map (·.2), rest) := by
  simp [invoke, collect_join r a ha hr, hn]

/-- C114: if one of them has a comma elsewhere, the invocation is ill-formed; nothing is passed in another way than written. -/
theorem C114_reject (n : Nat) (a : List PTok) (r : List (Bool × List PTok)) (ha : Balanced a) (hr : ∀ p ∈ r, Balanced p.2) (hn : r.length + 1 = n)
    (hbad : ¬ (Shielded a ∧ ∀ p ∈ r, Shielded p.2)) (sp : Bool) (rest : List PTok) :
    invoke (.fixed n) (commaJoin a r ++ ⟨sp, .rpar⟩ :: rest) = none := by
  obtain ⟨a', r', h1, h2, h3, h4, h5⟩ := parts_more r a ha hr
  have hne : r'.length ≠ r.length := fun h => hbad (h5 h)
  rw [h3]
  simp only [invoke, collect_join r' a' h1 h2, List.length_cons, List.length_map]
  rw [if_neg (by omega)]

/-- C114: the macros with `...` take every text with matching parentheses as it is. -/
theorem C114_variadic (a : List PTok) (ha : Balanced a) (sp : Bool) (rest : List PTok) :
    invoke .variadic (a ++ ⟨sp, .rpar⟩ :: rest) = some ([a], rest) := by
  simp only [invoke]
  rw [collectVa_balanced ha, collectVa_end]
  simp

/-- The macros with `...`. -/
theorem C114_which (name : String) : (name, Params.variadic) ∈ macros ↔
    name = "HELPER_TEST_STATIC_ASSERT" ∨ name = "HELPER_TEST_CONCEPT" ∨ name = "HELPER_TEST_SAME_TYPE" ∨ name = "HELPER_TEST_EQUIVALENT_TYPE" := by
  simp [macros]

/-- The macros with one argument, and with three or more. -/
theorem C114_arity (name : String) :
    ((name, Params.fixed 1) ∈ macros ↔ name ∈ ["HELPER_ASSERT", "HELPER_DEBUG_ASSERT", "HELPER_PRECONDITION", "HELPER_DEBUG_PRECONDITION",
      "HELPER_FAIL_MSG", "HELPER_NOTIFY", "HELPER_WARN", "HELPER_WARN_ONCE", "HELPER_ERROR", "HELPER_PRINT_TEST_CASE_TITLE",
      "HELPER_PRINT_TEST_COMMENT", "HELPER_TEST_WARN", "HELPER_TEST_NOTIFY", "HELPER_TEST_CATCH", "HELPER_TEST_CALL", "HELPER_TEST_SKIP",
      "HELPER_TEST_EXECUTE", "HELPER_TEST_TRY", "HELPER_TEST_PRINT", "HELPER_TEST_EVALUATE", "HELPER_TEST_ASSERT", "HELPER_TEST_FAIL",
      "HELPER_CLEAN_TEST_VECTOR"]) ∧
    ((∃ n, 3 ≤ n ∧ (name, Params.fixed n) ∈ macros) ↔ name ∈ ["HELPER_THROW", "HELPER_TEST_WITHIN", "HELPER_TEST_BINARY_PREDICATE",
      "HELPER_TEST_COMPARE", "HELPER_TEST_RESULT_COMPARE", "HELPER_TEST_CONSTRUCT", "HELPER_TEST_NAMED_CONSTRUCT",
      "HELPER_TEST_ASSIGN_CONSTRUCT", "HELPER_TEST_GRID_TREE_SUBPAVING_ITERATOR"]) ∧
    ((name, Params.fixed 4) ∈ macros ↔ name = "HELPER_TEST_RESULT_COMPARE") ∧ ∀ n, (name, Params.fixed n) ∈ macros → 1 ≤ n ∧ n ≤ 4 := by
  have key : ∀ p ∈ macros, (match p.2 with
      | .fixed n => decide (1 ≤ n ∧ n ≤ 4 ∧ (3 ≤ n → p.1 ∈ ["HELPER_THROW", "HELPER_TEST_WITHIN", "HELPER_TEST_BINARY_PREDICATE",
        "HELPER_TEST_COMPARE", "HELPER_TEST_RESULT_COMPARE", "HELPER_TEST_CONSTRUCT", "HELPER_TEST_NAMED_CONSTRUCT",
        "HELPER_TEST_ASSIGN_CONSTRUCT", "HELPER_TEST_GRID_TREE_SUBPAVING_ITERATOR"]))
      | .variadic => true) = true := by decide +kernel
  refine ⟨by simp [macros], ⟨?_, ?_⟩, by simp [macros], fun n h => ?_⟩
  · rintro ⟨n, hn, h⟩
    exact (of_decide_eq_true (key _ h)).2.2 hn
  · intro h
    by_cases h4 : name = "HELPER_TEST_RESULT_COMPARE"
    · exact ⟨4, by omega, by subst h4; simp [macros]⟩
    · refine ⟨3, by omega, ?_⟩
      simp only [List.mem_cons, List.not_mem_nil, or_false] at h
      rcases h with h | h | h | h | h | h | h | h | h
      all_goals first
        | exact absurd h h4
        | (subst h; simp [macros]; done)
  · exact ⟨(of_decide_eq_true (key _ h)).1, (of_decide_eq_true (key _ h)).2.1⟩

theorem strValue_plain : ∀ (s r : List Char), (∀ c ∈ s, c ≠ '"' ∧ c ≠ '\\') → strValue (s ++ r) = (strValue r).map (s ++ ·) := by
  intro s
  induction s with
  | nil => intro r _; simp
  | cons c s ih =>
    intro r h
    have hc := h c (by simp)
    have : strValue (c :: (s ++ r)) = (strValue (s ++ r)).map (c :: ·) := by
      rw [strValue.eq_def]
      split <;> simp_all
    rw [List.cons_append, this, ih r fun c hc => h c (by simp [hc])]
    simp [Option.map_map, Function.comp_def]

theorem strValue_escape : ∀ (s r : List Char), strValue (escape s ++ r) = (strValue r).map (s ++ ·) := by
  intro s
  induction s with
  | nil => intro r; simp [escape]
  | cons c s ih =>
    intro r
    rw [escape]
    by_cases h : c = '"' ∨ c = '\\'
    · rw [if_pos h]
      rcases h with rfl | rfl
      · show strValue ('\\' :: '"' :: (escape s ++ r)) = _
        rw [strValue, ih]; simp [Option.map_map, Function.comp_def]
      · show strValue ('\\' :: '\\' :: (escape s ++ r)) = _
        rw [strValue, ih]; simp [Option.map_map, Function.comp_def]
    · rw [if_neg h]
      have hc : ∀ d ∈ [c], d ≠ '"' ∧ d ≠ '\\' := by
        intro d hd
        rw [List.mem_singleton] at hd
        subst hd
        exact ⟨fun e => h (.inl e), fun e => h (.inr e)⟩
      have := strValue_plain [c] (escape s ++ r) hc
      rw [List.singleton_append] at this
      rw [List.cons_append, this, ih]
      simp [Option.map_map, Function.comp_def]

theorem strValue_piece (t : Tok) (ht : t.Plain) (r : List Char) : strValue (stringize.piece t ++ r) = (strValue r).map (t.spelling ++ ·) := by
  cases t with
  | lit q s => exact strValue_escape _ _
  | other s => exact strValue_plain s r ht
  | lpar => exact strValue_plain ['('] r (by decide)
  | rpar => exact strValue_plain [')'] r (by decide)
  | comma => exact strValue_plain [','] r (by decide)

theorem strValue_pieces : ∀ (l : List PTok), (∀ t ∈ l, t.tok.Plain) →
    strValue (l.flatMap (fun u => (if u.space then [' '] else []) ++ stringize.piece u.tok)) =
      some (l.flatMap (fun u => (if u.space then [' '] else []) ++ u.tok.spelling)) := by
  intro l
  induction l with
  | nil => intro _; rfl
  | cons t l ih =>
    intro h
    have hs : ∀ r, strValue ((if t.space then [' '] else []) ++ r) = (strValue r).map ((if t.space then [' '] else []) ++ ·) := by
      intro r
      cases t.space with
      | true => exact strValue_plain [' '] r (by decide)
      | false => simp
    rw [List.flatMap_cons, List.flatMap_cons, List.append_assoc, hs, strValue_piece _ (h t (by simp)), ih fun u hu => h u (by simp [hu])]
    simp

/-- C114: reports show the argument as written, whatever literals it contains. -/
theorem C114_text (a : List PTok) (h : ∀ t ∈ a, t.tok.Plain) : strValue (stringize a) = some (written a) := by
  cases a with
  | nil => rfl
  | cons t r =>
    show strValue (stringize.piece t.tok ++ _) = _
    rw [strValue_piece _ (h t (by simp)), strValue_pieces r fun u hu => h u (by simp [hu])]
    rfl

/-! ## Invocations within macros -/

/-- A token of the replacement list of a macro: a fixed one, a parameter, or `#parameter`. -/
inductive Item where
  | tok (t : PTok)
  | arg (i : Nat)
  | str (i : Nat)

/-- Substitution of the arguments: a parameter is replaced by its argument after all macros in it have been expanded (by `ex`), `#parameter` by a
string literal made of the argument as written. -/
def subst (ex : List PTok → List PTok) (args : List (List PTok)) (l : List Item) : List PTok :=
  l.flatMap fun
    | .tok t => [t]
    | .arg i => ex (args[i]?.getD [])
    | .str i => [⟨true, .lit '"' (stringize (args[i]?.getD []))⟩]

/-- A fixed token that is no literal. -/
def o (s : String) : Item := .tok ⟨false, .other s.toList⟩

/-- A string literal. -/
def l (s : String) : Item := .tok ⟨false, .lit '"' s.toList⟩

/-- `std::runtime_error`, the first argument of `HELPER_THROW` in all macros. -/
def excArg : List Item := [o "std", o "::", o "runtime_error"]

/-- `__FILE__<<":"<<__LINE__<<": "<<` and the name of the function, the second argument. -/
def locArg (func : String) : List Item := [o "__FILE__", o "<<", l ":", o "<<", o "__LINE__", o "<<", l ": ", o "<<", o func]

/-- The third argument of `HELPER_THROW`, and the function named in the second, in the macros that invoke it: macros.hpp:60, 70, 85, 99, 107, 116, 127, 134, 142. -/
def throwCalls : List (String × String × List Item) :=
  [("HELPER_ASSERT", "__FUNCTION__", [l "Assertion `", o "<<", .str 0, o "<<", l "' failed."]),
   ("HELPER_DEBUG_ASSERT_MSG", "HELPER_PRETTY_FUNCTION", [l "Assertion `", o "<<", .str 0, o "<<", l "' failed.\\n", o "<<", l "  ", o "<<", .arg 1]),
   ("HELPER_DEBUG_ASSERT", "__FUNCTION__", [l "Assertion `", o "<<", .str 0, o "<<", l "' failed."]),
   ("HELPER_PRECONDITION_MSG", "HELPER_PRETTY_FUNCTION", [l "Precondition `", o "<<", .str 0, o "<<", l "' failed.\\n", o "<<", l "  ", o "<<", .arg 1]),
   ("HELPER_PRECONDITION", "HELPER_PRETTY_FUNCTION", [l "Precondition `", o "<<", .str 0, o "<<", l "' failed."]),
   ("HELPER_DEBUG_PRECONDITION", "__FUNCTION__", [l "Precondition `", o "<<", .str 0, o "<<", l "' failed."]),
   ("HELPER_FAIL_MSG", "HELPER_PRETTY_FUNCTION", [l "ErrorTag ", o "<<", .arg 0]),
   ("HELPER_ASSERT_MSG", "HELPER_PRETTY_FUNCTION", [l "Assertion `", o "<<", .str 0, o "<<", l "' failed.\\n", o "<<", l "  ", o "<<", .arg 1]),
   ("HELPER_ASSERT_EQUAL", "HELPER_PRETTY_FUNCTION", [l "Assertion `", o "<<", .str 0, o "<<", l "==", o "<<", .str 1, o "<<", l "' failed.\\n", o "<<", l "  ",
      o "<<", .arg 0, o "<<", l " != ", o "<<", .arg 1])]

/-- The tokens of an invocation of `HELPER_THROW` from another macro, after the opening parenthesis. -/
def throwText (ex : List PTok → List PTok) (args : List (List PTok)) (func : String) (msg : List Item) : List PTok :=
  subst ex args excArg ++ ⟨false, .comma⟩ :: (subst ex args (locArg func) ++ ⟨false, .comma⟩ :: (subst ex args msg ++ [⟨false, .rpar⟩]))

/-- Items that do not break an argument. -/
def Item.Safe : Item → Prop
  | .tok t => t.tok ≠ .lpar ∧ t.tok ≠ .rpar ∧ t.tok ≠ .comma
  | _ => True

theorem subst_shielded {ex : List PTok → List PTok} {args : List (List PTok)} : ∀ {l : List Item}, (∀ x ∈ l, x.Safe) →
    (∀ i, .arg i ∈ l → Shielded (ex (args[i]?.getD []))) → Shielded (subst ex args l) := by
  intro l
  induction l with
  | nil => intro _ _; exact .nil
  | cons x l ih =>
    intro hs ha
    have hl : Shielded (subst ex args l) := ih (fun y hy => hs y (by simp [hy])) (fun i hi => ha i (by simp [hi]))
    rw [subst, List.flatMap_cons]
    refine shielded_append ?_ hl
    cases x with
    | tok t =>
      have := hs (.tok t) (by simp)
      exact .tok t this.1 this.2.1 this.2.2 .nil
    | arg i => exact ha i (by simp)
    | str i => exact .tok _ (by simp) (by simp) (by simp) .nil

theorem throwCalls_safe : ∀ m ∈ throwCalls, (∀ x ∈ m.2.2, x.Safe) ∧ (∀ x ∈ locArg m.2.1, x.Safe) := by
  simp [throwCalls, locArg, Item.Safe, o, l]

theorem excArg_safe : ∀ x ∈ excArg, x.Safe := by simp [excArg, Item.Safe, o]

/-- C114: the macros that throw pass three arguments to `HELPER_THROW`, if the arguments they stream have no bare commas after expansion. The string
literals made of the arguments are never broken. -/
theorem C114_throw (m : String × String × List Item) (hm : m ∈ throwCalls) (ex : List PTok → List PTok) (args : List (List PTok))
    (h : ∀ i, .arg i ∈ m.2.2 → Shielded (ex (args[i]?.getD []))) :
    invoke (.fixed 3) (throwText ex args m.2.1 m.2.2) = some ([subst ex args excArg, subst ex args (locArg m.2.1), subst ex args m.2.2], []) := by
  have h1 : Shielded (subst ex args excArg) := subst_shielded excArg_safe (by simp [excArg, o])
  have h2 : Shielded (subst ex args (locArg m.2.1)) := subst_shielded (throwCalls_safe m hm).2 (by simp [locArg, o, l])
  have h3 : Shielded (subst ex args m.2.2) := subst_shielded (throwCalls_safe m hm).1 h
  have := C114_args_partial 3 (subst ex args excArg) [(false, subst ex args (locArg m.2.1)), (false, subst ex args m.2.2)] h1
    (by simp [h2, h3]) rfl false []
  simpa [commaJoin, throwText] using this

/-- Hence the assertions that stream no argument work for every expression with which they can be invoked. -/
theorem C114_throw_str (m : String × String × List Item) (hm : m ∈ throwCalls) (hn : ∀ i, .arg i ∉ m.2.2) (ex : List PTok → List PTok) (args : List (List PTok)) :
    invoke (.fixed 3) (throwText ex args m.2.1 m.2.2) = some ([subst ex args excArg, subst ex args (locArg m.2.1), subst ex args m.2.2], []) :=
  C114_throw m hm ex args fun i hi => absurd hi (hn i)

/-- The parameters that are quoted in a message, and those whose values are streamed. -/
def quoted (xs : List Item) : List Nat := xs.filterMap fun | .str i => some i | _ => none
def streamed (xs : List Item) : List Nat := xs.filterMap fun | .arg i => some i | _ => none

/-- C114: the message of every macro but `HELPER_FAIL_MSG` quotes the expressions it has tested, in their order; the values of the error and of the two
expressions of `HELPER_ASSERT_EQUAL` are streamed, and nothing else. -/
theorem C114_quoted (m : String × String × List Item) (hm : m ∈ throwCalls) :
    quoted m.2.2 = (if m.1 = "HELPER_FAIL_MSG" then [] else if m.1 = "HELPER_ASSERT_EQUAL" then [0, 1] else [0]) ∧
    streamed m.2.2 = (if m.1 = "HELPER_FAIL_MSG" then [0] else if m.1 = "HELPER_ASSERT_EQUAL" then [0, 1]
      else if m.1 ∈ ["HELPER_ASSERT_MSG", "HELPER_DEBUG_ASSERT_MSG", "HELPER_PRECONDITION_MSG"] then [1] else []) := by
  simp only [throwCalls, List.mem_cons, List.not_mem_nil, or_false] at hm
  rcases hm with rfl | rfl | rfl | rfl | rfl | rfl | rfl | rfl | rfl <;> exact ⟨rfl, by decide⟩

example : ∃ m ∈ throwCalls, quoted m.2.2 = [0, 1] := ⟨throwCalls[8], List.getElem_mem _, rfl⟩

/-- `std::is_same<int,int>::value`. -/
def sameInt : List PTok :=
  [⟨false, .other "std".toList⟩, ⟨false, .other "::".toList⟩, ⟨false, .other "is_same".toList⟩, ⟨false, .other "<".toList⟩, ⟨false, .other "int".toList⟩,
   ⟨false, .comma⟩, ⟨false, .other "int".toList⟩, ⟨false, .other ">".toList⟩, ⟨false, .other "::".toList⟩, ⟨false, .other "value".toList⟩]

/-- C114 is false for the macros with named parameters: `HELPER_ASSERT(std::is_same<int,int>::value)` is ill-formed. In parentheses it is accepted. -/
theorem C114_refuted :
    invoke (.fixed 1) (sameInt ++ [⟨false, .rpar⟩]) = none ∧
    invoke (.fixed 1) (⟨false, .lpar⟩ :: (sameInt ++ [⟨false, .rpar⟩, ⟨false, .rpar⟩])) = some ([⟨false, .lpar⟩ :: (sameInt ++ [⟨false, .rpar⟩])], []) ∧
    invoke .variadic (sameInt ++ [⟨false, .rpar⟩]) = some ([sameInt], []) := by
  decide +kernel

example : Shielded [⟨false, .other "f".toList⟩, ⟨false, .lpar⟩, ⟨false, .other "1".toList⟩, ⟨false, .comma⟩, ⟨true, .other "2".toList⟩, ⟨false, .rpar⟩] :=
  .tok _ (by simp) (by simp) (by simp)
    (.group false false (b := [⟨false, .other "1".toList⟩, ⟨false, .comma⟩, ⟨true, .other "2".toList⟩]) (c := [])
      (.tok _ (by simp) (by simp) (.tok _ (by simp) (by simp) (.tok _ (by simp) (by simp) .nil))) .nil)
example : Balanced sameInt := by
  repeat (first | exact .nil | refine .tok _ (by simp) (by simp) ?_)
example : stringize [⟨true, .other "s".toList⟩, ⟨true, .other "==".toList⟩, ⟨false, .lit '"' "a\\n".toList⟩] = "s ==\\\"a\\\\n\\\"".toList := by decide +kernel
example : written [⟨true, .other "s".toList⟩, ⟨true, .other "==".toList⟩, ⟨false, .lit '"' "a\\n".toList⟩] = "s ==\"a\\n\"".toList := by decide +kernel
example : ("HELPER_ASSERT_EQUAL", Params.fixed 2) ∈ macros := by decide
example : ∃ m ∈ throwCalls, ∀ i, .arg i ∉ m.2.2 := ⟨_, List.mem_cons_self, by simp [o, l]⟩

end Helper.MText.Args
